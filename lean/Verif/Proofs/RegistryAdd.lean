import Verif.Model.RegistryAdd
import Verif.Proofs.Registry

/-! # Helper lemmas on tests that register tests -/

namespace Caitlyn.Registry

/-- The tests of the suites that satisfy `P`, in iteration order. -/
def sel (P : Str → Bool) (m : List (Str × List TestCase)) : List (Str × Str × Nat) :=
  (m.filter fun e => P e.1).flatMap fun e => e.2.map TestCase.key

theorem sel_nil (P : Str → Bool) : sel P [] = [] := rfl

theorem sel_cons (P : Str → Bool) (e : Str × List TestCase) (m : List (Str × List TestCase)) :
    sel P (e :: m) = (if P e.1 then e.2.map TestCase.key else []) ++ sel P m := by
  unfold sel
  by_cases h : P e.1 <;> simp [h]

theorem sel_append (P : Str → Bool) (a b : List (Str × List TestCase)) : sel P (a ++ b) = sel P a ++ sel P b := by
  simp [sel]

theorem sel_true (m : List (Str × List TestCase)) : sel (fun _ => true) m = keys m := by
  unfold sel keys
  rw [List.filter_eq_self.2 (by simp)]

theorem sel_add (P : Str → Bool) (s n : Str) (f : Nat) (m : List (Str × List TestCase)) :
    (sel P (StdMap.upsert Str.lt s (fun v => v.getD [] ++ [{ suite := s, name := n, func := f }]) m)).Perm
      (sel P m ++ [(s, n, f)].filter fun a => P a.1) := by
  induction m with
  | nil => by_cases h : P s <;> simp [StdMap.upsert, sel_cons, sel_nil, h, TestCase.key]
  | cons e m ih =>
    obtain ⟨k, v⟩ := e
    unfold StdMap.upsert
    split
    · rw [sel_cons]
      by_cases h : P s
      · simp only [h, if_true, TestCase.key, Option.getD_none, List.nil_append, List.map_cons, List.map_nil, List.filter_cons,
          List.filter_nil]
        exact List.perm_append_comm
      · simp [h]
    · split
      · rw [sel_cons, sel_cons, List.append_assoc]
        exact ih.append_left _
      · rename_i h1 h2
        have : s = k := str_strictTotal.eq s k (by simpa using h1) (by simpa using h2)
        subst this
        rw [sel_cons, sel_cons]
        by_cases h : P s
        · simp only [h, if_true, Option.getD_some, List.map_append, List.map_cons, List.map_nil, TestCase.key, List.filter_cons,
            List.filter_nil, List.append_assoc]
          exact List.perm_append_comm.append_left _
        · simp [h]

/-- Ordered and grouped under the right names. -/
structure Tidy (m : List (Str × List TestCase)) : Prop where
  sorted : StdMap.Sorted Str.lt m
  named : ∀ e ∈ m, ∀ t ∈ e.2, t.suite = e.1

theorem Tidy.add {m : List (Str × List TestCase)} (h : Tidy m) (s n : Str) (f : Nat) :
    Tidy (StdMap.upsert Str.lt s (fun v => v.getD [] ++ [{ suite := s, name := n, func := f }]) m) := by
  refine ⟨StdMap.upsert_sorted str_strictTotal _ _ _ h.sorted, ?_⟩
  have hn := h.named
  clear h
  induction m with
  | nil => intro e he t ht; simp [StdMap.upsert] at he; subst he; simp at ht; rw [ht]
  | cons e m ih =>
    obtain ⟨k, v⟩ := e
    intro e he t ht
    unfold StdMap.upsert at he
    split at he
    · rcases List.mem_cons.1 he with rfl | he
      · simp at ht; rw [ht]
      · exact hn e he t ht
    · split at he
      · rcases List.mem_cons.1 he with rfl | he
        · exact hn _ (by simp) t ht
        · exact ih (fun e he => hn e (by simp [he])) e he t ht
      · rename_i h1 h2
        have : s = k := str_strictTotal.eq s k (by simpa using h1) (by simpa using h2)
        subst this
        rcases List.mem_cons.1 he with rfl | he
        · simp only [Option.getD_some, List.mem_append, List.mem_singleton] at ht
          rcases ht with ht | rfl
          · exact hn (s, v) (by simp) t ht
          · rfl
        · exact hn e (by simp [he]) t ht

theorem addAll_cons (st : State) (r : Str × Str × Nat) (rs : List (Str × Str × Nat)) :
    addAll st (r :: rs) = addAll (addTest r.1 r.2.1 r.2.2 st) rs := rfl

theorem addAll_append (st : State) (a b : List (Str × Str × Nat)) : addAll st (a ++ b) = addAll (addAll st a) b := by
  simp [addAll]

theorem addAll_log (st : State) (rs : List (Str × Str × Nat)) : (addAll st rs).log = st.log := by
  induction rs generalizing st with
  | nil => rfl
  | cons r rs ih => rw [addAll_cons, ih]; rfl

theorem addAll_total (st : State) (rs : List (Str × Str × Nat)) : (addAll st rs).total = st.total + rs.length := by
  induction rs generalizing st with
  | nil => rfl
  | cons r rs ih => rw [addAll_cons, ih]; simp [addTest]; omega

/-- `addAll` changes the tests only depending on the tests. -/
theorem addAll_tests_congr (st st' : State) (h : st.tests = st'.tests) (rs : List (Str × Str × Nat)) :
    (addAll st rs).tests = (addAll st' rs).tests := by
  induction rs generalizing st st' with
  | nil => exact h
  | cons r rs ih => rw [addAll_cons, addAll_cons]; exact ih _ _ (by simp [addTest, h])

theorem addAll_tidy (st : State) (h : Tidy st.tests) (rs : List (Str × Str × Nat)) : Tidy (addAll st rs).tests := by
  induction rs generalizing st with
  | nil => exact h
  | cons r rs ih => rw [addAll_cons]; exact ih _ (h.add r.1 r.2.1 r.2.2)

theorem sel_addAll (P : Str → Bool) (st : State) (rs : List (Str × Str × Nat)) :
    (sel P (addAll st rs).tests).Perm (sel P st.tests ++ rs.filter fun a => P a.1) := by
  induction rs generalizing st with
  | nil => simp [addAll]
  | cons r rs ih =>
    rw [addAll_cons]
    refine (ih _).trans ?_
    refine ((sel_add P r.1 r.2.1 r.2.2 st.tests).append_right _).trans ?_
    rw [List.append_assoc]
    refine List.Perm.append_left _ ?_
    rw [List.filter_cons, List.filter_cons, List.filter_nil]
    by_cases h : P r.1 <;> simp [h]

theorem addAll_mem (st : State) (rs : List (Str × Str × Nat)) (s : Str) (h : ∀ a ∈ rs, a.1 ≠ s) (e : Str × List TestCase)
    (he : e ∈ (addAll st rs).tests) (hs : e.1 = s) : e ∈ st.tests := by
  induction rs generalizing st with
  | nil => exact he
  | cons r rs ih =>
    rw [addAll_cons] at he
    have := ih _ (fun a ha => h a (by simp [ha])) he
    rcases StdMap.upsert_keys str_strictTotal _ _ _ e this with h1 | h1
    · exact absurd (h1.symm.trans hs) (h r (by simp))
    · exact h1

/-- What the executions `n`, `n + 1`, … register, `k` of them. -/
def addsOf (w : AddWorld) : Nat → Nat → List (Str × Str × Nat)
  | _, 0 => []
  | n, k + 1 => w.adds n ++ addsOf w (n + 1) k

theorem addsOf_add (w : AddWorld) (n a b : Nat) : addsOf w n (a + b) = addsOf w n a ++ addsOf w (n + a) b := by
  induction a generalizing n with
  | zero => simp [addsOf]
  | succ a ih => rw [show a + 1 + b = (a + b) + 1 by omega, addsOf, addsOf, ih, List.append_assoc, show n + 1 + a = n + (a + 1) by omega]

theorem mem_addsOf (w : AddWorld) (n k : Nat) (a : Str × Str × Nat) (h : a ∈ addsOf w n k) : ∃ i, i < k ∧ a ∈ w.adds (n + i) := by
  induction k generalizing n with
  | zero => cases h
  | succ k ih =>
    rcases List.mem_append.1 h with h | h
    · exact ⟨0, by omega, h⟩
    · obtain ⟨i, hi, ha⟩ := ih _ h
      exact ⟨i + 1, by omega, by rw [show n + (i + 1) = n + 1 + i by omega]; exact ha⟩

theorem runSuiteA_ok (w : AddWorld) (s : Str) (ts : List TestCase) (st : State) (time : Nat) (st' : State) (time' : Nat)
    (ts' : List TestCase) (h : runSuiteA w s st time ts = (st', time', ts', none)) :
    ts'.map TestCase.key = ts.map TestCase.key ∧ st'.log = st.log ++ ts.map TestCase.key ∧
    st'.tests = (addAll st (addsOf w st.log.length ts.length)).tests ∧
    st'.total = st.total + (addsOf w st.log.length ts.length).length ∧
    ∀ i, i < ts.length → ∀ a ∈ w.adds (st.log.length + i), a.1 ≠ s := by
  induction ts generalizing st time st' time' ts' with
  | nil =>
    simp only [runSuiteA, Prod.mk.injEq] at h
    obtain ⟨rfl, _, rfl, _⟩ := h
    simp [addsOf, addAll]
  | cons t ts ih =>
    have hf := runTest_facts w.toWorld (addAll st (w.adds st.log.length)) t
    simp only [runSuiteA] at h
    generalize hr : runTest w.toWorld (addAll st (w.adds st.log.length)) t = r at h hf
    obtain ⟨st1, t1, e1⟩ := r
    simp only at h hf
    split at h
    · simp at h
    · rename_i hown
      cases e1 with
      | some e => simp at h
      | none =>
        simp only at h
        generalize hr2 : runSuiteA w s st1 (time + st1.localDiff) ts = r2 at h
        obtain ⟨st2, time2, ts2, e2⟩ := r2
        simp only [Prod.mk.injEq] at h
        obtain ⟨rfl, rfl, rfl, rfl⟩ := h
        obtain ⟨i1, i2, i3, i4, i5⟩ := ih st1 _ _ _ _ hr2
        obtain ⟨f1, f2, f3, f4, _⟩ := hf
        have hlen : st1.log.length = st.log.length + 1 := by rw [f3, addAll_log]; simp
        refine ⟨by simp [i1, f4], by rw [i2, f3, addAll_log]; simp, ?_, ?_, ?_⟩
        · rw [i3, hlen, List.length_cons, addsOf, addAll_append]
          exact addAll_tests_congr _ _ f1 _
        · rw [i4, f2, hlen, List.length_cons, addsOf, addAll_total, List.length_append]; omega
        · intro i hi a ha
          cases i with
          | zero =>
            intro e
            apply hown
            rw [List.any_eq_true]
            exact ⟨a, ha, by simp [e]⟩
          | succ i =>
            exact i5 i (by simpa using hi) a (by rw [hlen, show st.log.length + 1 + i = st.log.length + (i + 1) by omega]; exact ha)

/-- A run of a suite, if the messages of exceptions are readable: it stops at the first test that adds to its own suite. -/
theorem runSuiteA_stop (w : AddWorld) (s : Str) (hc : ∀ i, crashAt w.toWorld i = none) (ts : List TestCase)
    (hs : ∀ t ∈ ts, t.suite = s) (st : State) (time : Nat) :
    (runSuiteA w s st time ts).2.2.2 = none ∨
    ((runSuiteA w s st time ts).2.2.2 = some .ub ∧
      ∃ i x, st.log.length ≤ i ∧ (runSuiteA w s st time ts).1.log[i]? = some x ∧ ∃ a ∈ w.adds i, a.1 = x.1) := by
  induction ts generalizing st time with
  | nil => exact .inl rfl
  | cons t ts ih =>
    have hf := runTest_facts w.toWorld (addAll st (w.adds st.log.length)) t
    simp only [runSuiteA]
    generalize hr : runTest w.toWorld (addAll st (w.adds st.log.length)) t = r at hf
    obtain ⟨st1, t1, e1⟩ := r
    obtain ⟨f1, f2, f3, f4, f5, _⟩ := hf
    simp only at f1 f2 f3 f4 f5
    have hlog : st1.log = st.log ++ [t.key] := by rw [f3, addAll_log]
    rw [hc] at f5
    subst f5
    simp only
    split
    · rename_i hown
      right
      refine ⟨rfl, st.log.length, t.key, Nat.le_refl _, by simp [hlog], ?_⟩
      obtain ⟨a, ha, h⟩ := List.any_eq_true.1 hown
      exact ⟨a, ha, by rw [of_decide_eq_true h]; exact (hs t (by simp)).symm⟩
    · rcases ih (fun t ht => hs t (by simp [ht])) st1 (time + st1.localDiff) with h | ⟨h, i, x, hi, hx, ha⟩
      · exact .inl h
      · refine .inr ⟨h, i, x, ?_, hx, ha⟩
        rw [hlog, List.length_append] at hi
        omega

/-- The suite comes after the one visited last. -/
def above (last : Option Str) (s : Str) : Bool :=
  match last with
  | none => true
  | some k => Str.lt k s

theorem nextSuite_eq (last : Option Str) (m : List (Str × List TestCase)) : nextSuite last m = m.find? fun e => above last e.1 := by
  cases last <;> rfl

theorem above_trans {last : Option Str} {s s' : Str} (h : above last s = true) (h' : Str.lt s s' = true) : above last s' = true := by
  cases last with
  | none => rfl
  | some k => exact str_strictTotal.trans _ _ _ h h'

theorem sel_next {last : Option Str} {m : List (Str × List TestCase)} (h : StdMap.Sorted Str.lt m) {s : Str} {ts : List TestCase}
    (hn : nextSuite last m = some (s, ts)) :
    above last s = true ∧ (s, ts) ∈ m ∧ sel (above last) m = ts.map TestCase.key ++ sel (above (some s)) m := by
  rw [nextSuite_eq] at hn
  have hp : above last s = true := by simpa using List.find?_some hn
  refine ⟨hp, List.mem_of_find?_eq_some hn, ?_⟩
  induction m with
  | nil => cases hn
  | cons e m ih =>
    obtain ⟨h1, h2⟩ := List.pairwise_cons.1 h
    by_cases he : above last e.1 = true
    · rw [List.find?_cons_of_pos (by simpa using he)] at hn
      cases hn
      have hself : above (some s) s = false := str_strictTotal.irrefl s
      rw [sel_cons, sel_cons]
      simp only [he, if_true, hself, Bool.false_eq_true, if_false, List.nil_append]
      congr 1
      unfold sel
      congr 1
      apply List.filter_congr
      intro e' he'
      have := h1 e' he'
      rw [show above (some s) e'.1 = true from this, above_trans hp this]
    · rw [List.find?_cons_of_neg (by simpa using he)] at hn
      have hm := List.mem_of_find?_eq_some hn
      have hlt : Str.lt e.1 s = true := h1 _ hm
      have hno : above (some s) e.1 = false := str_strictTotal.asymm _ _ hlt
      rw [sel_cons, sel_cons]
      simp only [he, hno, Bool.false_eq_true, if_false, List.nil_append]
      exact ih h2 hn

theorem sel_put (P : Str → Bool) (s : Str) (ts : List TestCase) (st : State)
    (h : P s = true → ∀ e ∈ st.tests, e.1 = s → e.2.map TestCase.key = ts.map TestCase.key) :
    sel P (putSuite s ts st).tests = sel P st.tests := by
  unfold putSuite
  simp only
  generalize st.tests = m at h
  induction m with
  | nil => rfl
  | cons e m ih =>
    rw [List.map_cons, sel_cons, sel_cons, ih (fun hp e he => h hp e (by simp [he]))]
    congr 1
    by_cases he : e.1 = s
    · rw [if_pos he, he]
      by_cases hp : P s = true
      · simp only [hp, if_true]
        exact (h hp e (by simp) he).symm
      · simp [hp]
    · rw [if_neg he]

theorem Tidy.put {st : State} (h : Tidy st.tests) (s : Str) (ts : List TestCase) (hs : ∀ t ∈ ts, t.suite = s) :
    Tidy (putSuite s ts st).tests := by
  unfold putSuite
  constructor
  · unfold StdMap.Sorted
    rw [List.pairwise_map]
    refine h.sorted.imp ?_
    intro a b hab
    have e : ∀ c : Str × List TestCase, (if c.1 = s then (s, ts) else c).1 = c.1 := by
      intro c
      by_cases hc : c.1 = s
      · rw [if_pos hc]; exact hc.symm
      · rw [if_neg hc]
    rw [e, e]
    exact hab
  · intro e he t ht
    obtain ⟨c, hc, rfl⟩ := List.mem_map.1 he
    by_cases hcs : c.1 = s
    · rw [if_pos hcs] at ht ⊢; exact hs t ht
    · rw [if_neg hcs] at ht ⊢; exact h.named c hc t ht

/-- The tests that the executions `n`, `n + 1`, … of the listed tests register for later suites than their own. -/
def spawned (w : AddWorld) : Nat → List (Str × Str × Nat) → List (Str × Str × Nat)
  | _, [] => []
  | n, t :: ts => (w.adds n).filter (fun a => Str.lt t.1 a.1) ++ spawned w (n + 1) ts

theorem spawned_append (w : AddWorld) (n : Nat) (a b : List (Str × Str × Nat)) :
    spawned w n (a ++ b) = spawned w n a ++ spawned w (n + a.length) b := by
  induction a generalizing n with
  | nil => rfl
  | cons t a ih => simp [spawned, ih, show n + 1 + a.length = n + (a.length + 1) by omega]

theorem spawned_suite (w : AddWorld) (s : Str) (n : Nat) (ts : List (Str × Str × Nat)) (h : ∀ t ∈ ts, t.1 = s) :
    spawned w n ts = (addsOf w n ts.length).filter fun a => Str.lt s a.1 := by
  induction ts generalizing n with
  | nil => rfl
  | cons t ts ih =>
    rw [spawned, List.length_cons, addsOf, List.filter_append, ih _ (fun t ht => h t (by simp [ht])), h t (by simp)]

theorem keys_suite {s : Str} {ts : List TestCase} (h : ∀ t ∈ ts, t.suite = s) : ∀ x ∈ ts.map TestCase.key, x.1 = s := by
  intro x hx
  obtain ⟨t, ht, rfl⟩ := List.mem_map.1 hx
  exact h t ht

theorem suite_keys {s : Str} {ts : List TestCase} (h : ∀ x ∈ ts.map TestCase.key, x.1 = s) : ∀ t ∈ ts, t.suite = s := by
  intro t ht
  exact h t.key (List.mem_map.2 ⟨t, ht, rfl⟩)

theorem runSuitesA_ok (w : AddWorld) (n : Nat) (st : State) (last : Option Str) (st' : State) (hI : Tidy st.tests)
    (h : runSuitesA w n st last = (st', none)) :
    ∃ ex, st'.log = st.log ++ ex ∧ ex.Perm (sel (above last) st.tests ++ spawned w st.log.length ex) ∧
      (∀ x ∈ ex, above last x.1 = true) ∧ ex.Pairwise (fun x y => Str.lt y.1 x.1 = false) ∧
      (∀ i x, ex[i]? = some x → ∀ a ∈ w.adds (st.log.length + i), a.1 ≠ x.1) ∧
      Tidy st'.tests ∧ (keys st'.tests).Perm (keys st.tests ++ addsOf w st.log.length ex.length) ∧
      st'.total = st.total + (addsOf w st.log.length ex.length).length := by
  induction n generalizing st last with
  | zero => simp [runSuitesA] at h
  | succ n ih =>
    rw [runSuitesA] at h
    cases hn : nextSuite last st.tests with
    | none =>
      rw [hn] at h
      simp only [Prod.mk.injEq, and_true] at h
      subst h
      refine ⟨[], by simp, ?_, by simp, .nil, by simp, hI, by simp [addsOf], by simp [addsOf]⟩
      rw [nextSuite_eq, List.find?_eq_none] at hn
      have : st.tests.filter (fun e => above last e.1) = [] := List.filter_eq_nil_iff.2 hn
      simp [sel, this, spawned]
    | some e =>
      obtain ⟨s, ts⟩ := e
      rw [hn] at h
      simp only at h
      generalize hr : runSuiteA w s (st.print (logSuiteStart s ts.length)) 0 ts = r at h
      obtain ⟨st1, time1, ts1, e1⟩ := r
      cases e1 with
      | some e => simp at h
      | none =>
        simp only at h
        obtain ⟨q1, q2, q3, q4, q5⟩ := runSuiteA_ok w s ts _ _ _ _ _ hr
        have hlog0 : (st.print (logSuiteStart s ts.length)).log = st.log := rfl
        have htot0 : (st.print (logSuiteStart s ts.length)).total = st.total := rfl
        rw [hlog0] at q2 q3 q4 q5
        rw [htot0] at q4
        have q3' : st1.tests = (addAll st (addsOf w st.log.length ts.length)).tests := q3.trans (addAll_tests_congr (st.print (logSuiteStart s ts.length)) st rfl _)
        obtain ⟨n1, n2, n3⟩ := sel_next hI.sorted hn
        have hsuite : ∀ t ∈ ts, t.suite = s := hI.named _ n2
        have hkeys := keys_suite hsuite
        have hnoown : ∀ a ∈ addsOf w st.log.length ts.length, a.1 ≠ s := by
          intro a ha
          obtain ⟨i, hi, ha⟩ := mem_addsOf w _ _ a ha
          exact q5 i hi a ha
        have hsuite1 : ∀ t ∈ ts1, t.suite = s := suite_keys (by rw [q1]; exact hkeys)
        have htidy1 : Tidy st1.tests := by rw [q3']; exact addAll_tidy st hI _
        have htidy2 := htidy1.put s ts1 hsuite1
        obtain ⟨ex, p1, p2, p3, p4, p5, p6, p7, p8⟩ := ih ((putSuite s ts1 st1).print (logSuiteEnd s ts1.length time1)) (some s) htidy2 h
        have hl : ((putSuite s ts1 st1).print (logSuiteEnd s ts1.length time1)).log = st1.log := rfl
        have htt : ((putSuite s ts1 st1).print (logSuiteEnd s ts1.length time1)).tests = (putSuite s ts1 st1).tests := rfl
        have htot : ((putSuite s ts1 st1).print (logSuiteEnd s ts1.length time1)).total = st1.total := rfl
        rw [hl] at p1 p2 p5 p7 p8
        rw [htt] at p2 p7
        rw [htot] at p8
        have hlen : st1.log.length = st.log.length + ts.length := by rw [q2]; simp
        have hself : above (some s) s = false := str_strictTotal.irrefl s
        have hsel : (sel (above (some s)) (putSuite s ts1 st1).tests).Perm
            (sel (above (some s)) st.tests ++ (addsOf w st.log.length ts.length).filter fun a => above (some s) a.1) := by
          rw [sel_put _ _ _ _ (fun hp => by rw [hself] at hp; cases hp), q3']
          exact sel_addAll _ _ _
        have hallkeys : keys (putSuite s ts1 st1).tests = keys st1.tests := by
          rw [← sel_true, ← sel_true]
          refine sel_put _ _ _ _ fun _ e he hes => ?_
          rw [q3'] at he
          have hmem := addAll_mem st _ s hnoown e he hes
          have e1 := sorted_lookup hI.sorted e hmem
          have e2 := sorted_lookup hI.sorted _ n2
          rw [hes] at e1
          simp only at e2
          rw [e1] at e2
          injection e2 with e2
          rw [e2, q1]
        refine ⟨ts.map TestCase.key ++ ex, by rw [p1, q2, List.append_assoc], ?_, ?_, ?_, ?_, p6, ?_, ?_⟩
        · rw [n3, spawned_append, List.length_map, spawned_suite w s _ _ hkeys, List.length_map, List.append_assoc]
          refine List.Perm.append_left _ ?_
          rw [hlen] at p2
          refine p2.trans ?_
          refine (hsel.append_right _).trans ?_
          rw [List.append_assoc]
          exact List.Perm.refl _
        · intro x hx
          rcases List.mem_append.1 hx with hx | hx
          · rw [hkeys x hx]; exact n1
          · exact above_trans n1 (p3 x hx)
        · rw [List.pairwise_append]
          refine ⟨?_, p4, ?_⟩
          · refine List.pairwise_iff_forall_sublist.2 ?_
            intro x y hxy
            rw [hkeys x (hxy.subset (by simp)), hkeys y (hxy.subset (by simp))]
            exact str_strictTotal.irrefl s
          · intro x hx y hy
            rw [hkeys x hx]
            exact str_strictTotal.asymm _ _ (p3 y hy)
        · intro i x hx a ha
          by_cases hi : i < ts.length
          · have : x ∈ ts.map TestCase.key := by
              rw [List.getElem?_append_left (by simpa using hi)] at hx
              exact List.mem_of_getElem? hx
            rw [hkeys x this]
            exact q5 i hi a ha
          · rw [List.getElem?_append_right (by simp; omega), List.length_map] at hx
            refine p5 (i - ts.length) x hx a ?_
            rw [hlen, show st.log.length + ts.length + (i - ts.length) = st.log.length + i by omega]
            exact ha
        · rw [List.length_append, List.length_map, addsOf_add, ← hlen]
          refine p7.trans ?_
          rw [hallkeys, ← List.append_assoc]
          refine List.Perm.append_right _ ?_
          rw [q3', ← sel_true, ← sel_true]
          refine (sel_addAll _ st _).trans ?_
          rw [List.filter_eq_self.2 (by simp)]
        · rw [p8, q4, List.length_append, List.length_map, addsOf_add, ← hlen, List.length_append]; omega

/-- One round of the outer loop leaves an orderly map. -/
theorem runSuiteA_tidy (w : AddWorld) (st : State) (hI : Tidy st.tests) (last : Option Str) (s : Str) (ts : List TestCase)
    (hn : nextSuite last st.tests = some (s, ts)) (st1 : State) (time1 : Nat) (ts1 : List TestCase)
    (hr : runSuiteA w s (st.print (logSuiteStart s ts.length)) 0 ts = (st1, time1, ts1, none)) :
    Tidy (putSuite s ts1 st1).tests := by
  obtain ⟨q1, _, q3, _, _⟩ := runSuiteA_ok w s ts _ _ _ _ _ hr
  obtain ⟨_, n2, _⟩ := sel_next hI.sorted hn
  refine Tidy.put ?_ s ts1 (suite_keys (by rw [q1]; exact keys_suite (hI.named _ n2)))
  rw [q3]
  exact addAll_tidy (st.print (logSuiteStart s ts.length)) hI _

/-- A run, if the messages of exceptions are readable: it ends, or stops at a test that adds to its own suite, or the number
of rounds is too small. -/
theorem runSuitesA_stop (w : AddWorld) (hc : ∀ i, crashAt w.toWorld i = none) (n : Nat) (st : State) (last : Option Str)
    (hI : Tidy st.tests) :
    (runSuitesA w n st last).2 = none ∨ (runSuitesA w n st last).2 = some .fuel ∨
    ((runSuitesA w n st last).2 = some .ub ∧
      ∃ i x, st.log.length ≤ i ∧ (runSuitesA w n st last).1.log[i]? = some x ∧ ∃ a ∈ w.adds i, a.1 = x.1) := by
  induction n generalizing st last with
  | zero => exact .inr (.inl rfl)
  | succ n ih =>
    rw [runSuitesA]
    cases hn : nextSuite last st.tests with
    | none => exact .inl rfl
    | some e =>
      obtain ⟨s, ts⟩ := e
      simp only
      obtain ⟨_, n2, _⟩ := sel_next hI.sorted hn
      have hstop := runSuiteA_stop w s hc ts (hI.named _ n2) (st.print (logSuiteStart s ts.length)) 0
      generalize hr : runSuiteA w s (st.print (logSuiteStart s ts.length)) 0 ts = r at hstop
      obtain ⟨st1, time1, ts1, e1⟩ := r
      simp only at hstop
      cases e1 with
      | some e =>
        rcases hstop with h | ⟨h, hx⟩
        · cases h
        · simp only
          exact .inr (.inr ⟨h, hx⟩)
      | none =>
        simp only
        have ht := runSuiteA_tidy w st hI last s ts hn st1 time1 ts1 hr
        rcases ih ((putSuite s ts1 st1).print (logSuiteEnd s ts1.length time1)) (some s) ht with h | h | ⟨h, i, x, hi, hx⟩
        · exact .inl h
        · exact .inr (.inl h)
        · refine .inr (.inr ⟨h, i, x, ?_, hx⟩)
          have hlog := (runSuiteA_ok w s ts _ _ _ _ _ hr).2.1
          have hl : ((putSuite s ts1 st1).print (logSuiteEnd s ts1.length time1)).log = st1.log := rfl
          rw [hl, hlog, List.length_append] at hi
          have : (st.print (logSuiteStart s ts.length)).log = st.log := rfl
          rw [this] at hi
          omega

/-! ### The end of the outer loop -/

theorem filter_upsert (P : Str → Bool) (s : Str) (f : Option (List TestCase) → List TestCase) (m : List (Str × List TestCase)) :
    ((StdMap.upsert Str.lt s f m).filter fun e => P e.1).length ≤ (m.filter fun e => P e.1).length + 1 := by
  induction m with
  | nil => unfold StdMap.upsert; exact List.length_filter_le _ _
  | cons e m ih =>
    obtain ⟨k, v⟩ := e
    unfold StdMap.upsert
    split
    · rw [List.filter_cons]; split <;> simp
    · split
      · rw [List.filter_cons, List.filter_cons]; split <;> simp_all
      · rename_i h1 h2
        have : s = k := str_strictTotal.eq s k (by simpa using h1) (by simpa using h2)
        subst this
        rw [List.filter_cons, List.filter_cons]; split <;> simp

theorem filter_addAll (P : Str → Bool) (st : State) (rs : List (Str × Str × Nat)) :
    ((addAll st rs).tests.filter fun e => P e.1).length ≤ (st.tests.filter fun e => P e.1).length + rs.length := by
  induction rs generalizing st with
  | nil => exact Nat.le_refl _
  | cons r rs ih =>
    rw [addAll_cons, List.length_cons]
    have h1 := ih (addTest r.1 r.2.1 r.2.2 st)
    have h2 := filter_upsert P r.1 (fun v => v.getD [] ++ [{ suite := r.1, name := r.2.1, func := r.2.2 }]) st.tests
    have h3 : (addTest r.1 r.2.1 r.2.2 st).tests =
      StdMap.upsert Str.lt r.1 (fun v => v.getD [] ++ [{ suite := r.1, name := r.2.1, func := r.2.2 }]) st.tests := rfl
    rw [h3] at h1
    omega

theorem filter_put (P : Str → Bool) (s : Str) (ts : List TestCase) (st : State) :
    ((putSuite s ts st).tests.filter fun e => P e.1).length = (st.tests.filter fun e => P e.1).length := by
  unfold putSuite
  simp only
  generalize st.tests = m
  induction m with
  | nil => rfl
  | cons e m ih =>
    have he : (if e.1 = s then (s, ts) else e).1 = e.1 := by
      by_cases hc : e.1 = s
      · rw [if_pos hc]; exact hc.symm
      · rw [if_neg hc]
    rw [List.map_cons, List.filter_cons, List.filter_cons, he]
    split <;> simp [ih]

theorem filter_next {last : Option Str} {m : List (Str × List TestCase)} (h : StdMap.Sorted Str.lt m) {s : Str}
    {ts : List TestCase} (hn : nextSuite last m = some (s, ts)) :
    (m.filter fun e => above last e.1).length = (m.filter fun e => above (some s) e.1).length + 1 := by
  have hp := (sel_next h hn).1
  rw [nextSuite_eq] at hn
  induction m with
  | nil => cases hn
  | cons e m ih =>
    obtain ⟨h1, h2⟩ := List.pairwise_cons.1 h
    by_cases he : above last e.1 = true
    · rw [List.find?_cons_of_pos (by simpa using he)] at hn
      cases hn
      have hself : above (some s) s = false := str_strictTotal.irrefl s
      rw [List.filter_cons_of_pos (by simpa using he), List.filter_cons_of_neg (by simp [hself]), List.length_cons]
      congr 2
      apply List.filter_congr
      intro e' he'
      have := h1 e' he'
      rw [show above (some s) e'.1 = true from this, above_trans hp this]
    · rw [List.find?_cons_of_neg (by simpa using he)] at hn
      have hm := List.mem_of_find?_eq_some hn
      have hno : above (some s) e.1 = false := str_strictTotal.asymm _ _ (h1 _ hm)
      rw [List.filter_cons_of_neg (by simpa using he), List.filter_cons_of_neg (by simp [hno])]
      exact ih h2 hn

theorem addsOf_nil (w : AddWorld) (N : Nat) (hN : ∀ i, N ≤ i → w.adds i = []) (n k : Nat) (h : N ≤ n) : addsOf w n k = [] := by
  induction k generalizing n with
  | zero => rfl
  | succ k ih => rw [addsOf, hN n h, ih (n + 1) (by omega)]; rfl

theorem addsOf_split (w : AddWorld) (N : Nat) (hN : ∀ i, N ≤ i → w.adds i = []) (n k : Nat) :
    (addsOf w n k).length + (addsOf w (n + k) (N - (n + k))).length = (addsOf w n (N - n)).length := by
  by_cases h : k ≤ N - n
  · rw [show N - n = k + (N - (n + k)) by omega, addsOf_add, List.length_append]
  · rw [addsOf_nil w N hN (n + k) _ (by omega)]
    conv => lhs; rw [show k = (N - n) + (k - (N - n)) by omega, addsOf_add, addsOf_nil w N hN (n + (N - n)) _ (by omega)]
    simp

theorem runSuitesA_ends (w : AddWorld) (hc : ∀ i, crashAt w.toWorld i = none) (N : Nat) (hN : ∀ i, N ≤ i → w.adds i = [])
    (n : Nat) (st : State) (last : Option Str) (hI : Tidy st.tests)
    (hm : (st.tests.filter fun e => above last e.1).length + (addsOf w st.log.length (N - st.log.length)).length < n) :
    (runSuitesA w n st last).2 ≠ some .fuel := by
  induction n generalizing st last with
  | zero => omega
  | succ n ih =>
    rw [runSuitesA]
    cases hn : nextSuite last st.tests with
    | none => simp
    | some e =>
      obtain ⟨s, ts⟩ := e
      simp only
      obtain ⟨_, n2, _⟩ := sel_next hI.sorted hn
      have hstop := runSuiteA_stop w s hc ts (hI.named _ n2) (st.print (logSuiteStart s ts.length)) 0
      generalize hr : runSuiteA w s (st.print (logSuiteStart s ts.length)) 0 ts = r at hstop
      obtain ⟨st1, time1, ts1, e1⟩ := r
      simp only at hstop
      cases e1 with
      | some e =>
        rcases hstop with h | ⟨h, hx⟩
        · cases h
        · rw [h]; simp
      | none =>
        simp only
        have ht := runSuiteA_tidy w st hI last s ts hn st1 time1 ts1 hr
        refine ih ((putSuite s ts1 st1).print (logSuiteEnd s ts1.length time1)) (some s) ht ?_
        obtain ⟨_, q2, q3, _, _⟩ := runSuiteA_ok w s ts _ _ _ _ _ hr
        have hl0 : (st.print (logSuiteStart s ts.length)).log = st.log := rfl
        rw [hl0] at q2 q3
        have hl : ((putSuite s ts1 st1).print (logSuiteEnd s ts1.length time1)).log = st1.log := rfl
        have htt : ((putSuite s ts1 st1).print (logSuiteEnd s ts1.length time1)).tests = (putSuite s ts1 st1).tests := rfl
        rw [hl, htt, filter_put, q2, List.length_append, List.length_map, q3]
        have h1 := filter_addAll (above (some s)) (st.print (logSuiteStart s ts.length)) (addsOf w st.log.length ts.length)
        have ht0 : (st.print (logSuiteStart s ts.length)).tests = st.tests := rfl
        rw [ht0] at h1
        have h2 := filter_next hI.sorted hn
        have h3 := addsOf_split w N hN st.log.length ts.length
        omega

/-! ### Tests that register nothing -/

theorem runTest_tests (w : World) (st : State) (m : List (Str × List TestCase)) (t : TestCase) :
    runTest w { st with tests := m } t =
      ({ (runTest w st t).1 with tests := m }, (runTest w st t).2.1, (runTest w st t).2.2) := by
  unfold runTest
  simp only [State.print, logTestFailure, endTest]
  cases (w.exec st.log.length).ends with
  | returns => rfl
  | throwsOther => rfl
  | throwsStd what =>
    simp only
    cases Str.ofCStr (what ++ [0]) <;> rfl

theorem runSuiteA_none (w : AddWorld) (h : ∀ i, w.adds i = []) (s : Str) (ts : List TestCase) (st : State)
    (m : List (Str × List TestCase)) (time : Nat) :
    runSuiteA w s { st with tests := m } time ts =
      ({ (runSuite w.toWorld st time ts).1 with tests := m }, (runSuite w.toWorld st time ts).2) := by
  induction ts generalizing st time with
  | nil => rfl
  | cons t ts ih =>
    simp only [runSuiteA, runSuite, h, addAll, List.foldl_nil, List.any_nil, Bool.false_eq_true, if_false, runTest_tests]
    generalize runTest w.toWorld st t = r
    obtain ⟨st1, t1, e1⟩ := r
    cases e1 with
    | some e => rfl
    | none => simp only [ih]

theorem runSuitesA_none (w : AddWorld) (h : ∀ i, w.adds i = []) (n : Nat) (rest done : List (Str × List TestCase)) (st : State)
    (last : Option Str) (hs : StdMap.Sorted Str.lt (done ++ rest)) (hl : ∀ e ∈ rest, above last e.1 = true)
    (hd : ∀ e ∈ done, above last e.1 = false) (hn : rest.length < n) :
    runSuitesA w n { st with tests := done ++ rest } last =
      ({ (runSuites w.toWorld st rest).1 with tests := done ++ (runSuites w.toWorld st rest).2.1 },
        (runSuites w.toWorld st rest).2.2) := by
  induction n generalizing rest done st last with
  | zero => omega
  | succ n ih =>
    have hskip : ∀ l, nextSuite last (done ++ l) = nextSuite last l := by
      intro l
      rw [nextSuite_eq, nextSuite_eq, List.find?_append, List.find?_eq_none.2 (by intro e he; simp [hd e he])]
      rfl
    rw [runSuitesA]
    simp only [hskip]
    cases rest with
    | nil => rfl
    | cons e rest =>
      obtain ⟨s, ts⟩ := e
      have hnext : nextSuite last ((s, ts) :: rest) = some (s, ts) := by
        rw [nextSuite_eq, List.find?_cons_of_pos (by simpa using hl (s, ts) (by simp))]
      rw [hnext]
      simp only [runSuites]
      have hpr : ({ st with tests := done ++ (s, ts) :: rest } : State).print (logSuiteStart s ts.length) =
        { st.print (logSuiteStart s ts.length) with tests := done ++ (s, ts) :: rest } := rfl
      rw [hpr, runSuiteA_none w h]
      generalize runSuite w.toWorld (st.print (logSuiteStart s ts.length)) 0 ts = r
      obtain ⟨st1, time1, ts1, e1⟩ := r
      obtain ⟨g1, g2, g3⟩ := List.pairwise_append.1 hs
      obtain ⟨g4, g5⟩ := List.pairwise_cons.1 g2
      have hput : putSuite s ts1 { st1 with tests := done ++ (s, ts) :: rest } =
          { st1 with tests := (done ++ [(s, ts1)]) ++ rest } := by
        unfold putSuite
        simp only [List.map_append, List.map_cons, if_true]
        have h1 : done.map (fun e => if e.1 = s then (s, ts1) else e) = done := by
          refine (List.map_congr_left ?_).trans (List.map_id done)
          intro e he
          have := g3 e he (s, ts) (by simp)
          rw [if_neg (by intro hc; rw [hc] at this; exact absurd this (by simp [str_strictTotal.irrefl s]))]
          rfl
        have h2 : rest.map (fun e => if e.1 = s then (s, ts1) else e) = rest := by
          refine (List.map_congr_left ?_).trans (List.map_id rest)
          intro e he
          have := g4 e he
          rw [if_neg (by intro hc; simp only [hc] at this; exact absurd this (by simp [str_strictTotal.irrefl s]))]
          rfl
        rw [h1, h2]
        simp
      cases e1 with
      | some e =>
        simp only [hput]
        simp
      | none =>
        simp only [hput]
        have hpr2 : ({ st1 with tests := (done ++ [(s, ts1)]) ++ rest } : State).print (logSuiteEnd s ts1.length time1) =
          { st1.print (logSuiteEnd s ts1.length time1) with tests := (done ++ [(s, ts1)]) ++ rest } := rfl
        rw [hpr2, ih rest (done ++ [(s, ts1)]) _ (some s)]
        · simp
        · unfold StdMap.Sorted at *
          rw [List.append_assoc, List.pairwise_append]
          refine ⟨g1, List.pairwise_cons.2 ⟨g4, g5⟩, ?_⟩
          intro a ha b hb
          rcases List.mem_cons.1 hb with rfl | hb
          · exact g3 a ha (s, ts) (by simp)
          · exact g3 a ha b (List.mem_cons_of_mem _ hb)
        · exact g4
        · intro e he
          rcases List.mem_append.1 he with he | he
          · exact str_strictTotal.asymm _ _ (g3 e he (s, ts) (by simp))
          · simp only [List.mem_singleton] at he
            subst he
            exact str_strictTotal.irrefl s
        · simp at hn; exact hn

end Caitlyn.Registry
