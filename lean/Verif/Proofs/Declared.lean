import Verif.Proofs.Headers
import Verif.Model.Declared
import Verif.Spec.Headers

/-! # Proofs about the compilation of headers -/

namespace Caitlyn.Headers

theorem compileFrom_ok (c : Bool) : ∀ (fs seen : List File), compileFrom c seen fs = .ok () ↔
    ∀ pre f post, fs = pre ++ f :: post → specialises c f = false ∧ ∀ g ∈ uses f, g ∈ seen ∨ g ∈ pre
  | [], seen => by simp [compileFrom]
  | f :: rest, seen => by
    have ih := compileFrom_ok c rest (f :: seen)
    rw [compileFrom]
    cases hu : (uses f).find? (· ∉ seen) with
    | some g =>
      simp only [reduceCtorEq, false_iff]
      intro h
      have h1 := List.mem_of_find?_eq_some hu
      have h2 := List.find?_some hu
      rcases (h [] f rest rfl).2 g h1 with h | h
      · simp [h] at h2
      · cases h
    | none =>
      simp only
      have hn : ∀ g ∈ uses f, g ∈ seen := fun g hg => by
        have := List.find?_eq_none.mp hu g hg
        simpa using this
      cases hs : specialises c f with
      | true =>
        simp only [if_true, reduceCtorEq, false_iff]
        intro h
        have := (h [] f rest rfl).1
        rw [hs] at this; cases this
      | false =>
        simp only [Bool.false_eq_true, if_false]
        rw [ih]
        constructor
        · intro h pre x post e
          cases pre with
          | nil =>
            injection e with e1 e2
            subst e1
            exact ⟨hs, fun g hg => .inl (hn g hg)⟩
          | cons y pre =>
            injection e with e1 e2
            subst e1
            obtain ⟨a, b⟩ := h pre x post e2
            refine ⟨a, fun g hg => ?_⟩
            rcases b g hg with b | b
            · rcases List.mem_cons.mp b with rfl | b
              · exact .inr (by simp)
              · exact .inl b
            · exact .inr (by simp [b])
        · intro h pre x post e
          obtain ⟨a, b⟩ := h (f :: pre) x post (by rw [e]; rfl)
          refine ⟨a, fun g hg => ?_⟩
          rcases b g hg with b | b
          · exact .inl (by simp [b])
          · rcases List.mem_cons.mp b with rfl | b
            · exact .inl (by simp)
            · exact .inr b

/-- The headers that a header includes, directly and through others. -/
def reach : Nat → File → List File
  | 0, _ => []
  | n + 1, f => (includes f).flatMap fun p => match p with
    | .exact g => g :: reach n g
    | .lowered g => g :: reach n g

/-- If what is included comes earlier, so does what is included through others. -/
theorem reach_before {ic : Bool} {out : List File}
    (ho : ∀ pre h post, out = pre ++ h :: post → ∀ q ∈ includes h, ∃ g, lookup ic q = some g ∧ g ∈ pre) :
    ∀ (n : Nat) (f : File) (pre post : List File), out = pre ++ f :: post → ∀ g ∈ reach n f, g ∈ pre
  | 0, _, _, _, _, g, hg => by cases hg
  | n + 1, f, pre, post, e, g, hg => by
    rw [reach] at hg
    obtain ⟨p, hp, hq⟩ := List.mem_flatMap.mp hg
    obtain ⟨x, hx, hm⟩ := ho pre f post e p hp
    have key : g = x ∨ g ∈ reach n x := by
      cases p with
      | exact y =>
        simp only [lookup] at hx
        injection hx with hx
        subst hx
        exact List.mem_cons.mp hq
      | lowered y =>
        cases ic
        · exact absurd hx (by simp [lookup])
        · simp only [lookup, if_true] at hx
          injection hx with hx
          subst hx
          exact List.mem_cons.mp hq
    rcases key with rfl | hq
    · exact hm
    · obtain ⟨a, b, hab⟩ := List.append_of_mem hm
      have := reach_before ho n x a (b ++ f :: post) (by rw [e, hab]; simp) g hq
      rw [hab]
      exact List.mem_append_left _ this

/-- TestFailMessage.h has been read only after String.h. -/
def Good (tu : Tu) : Prop := ∀ pre post, tu.out = pre ++ .Testing_Types_TestFailMessage :: post → .Core_String_String ∈ pre

theorem good_append {out : List File} {h : File} (hg : Good ⟨d, out⟩)
    (hh : h = .Testing_Types_TestFailMessage → .Core_String_String ∈ out) : Good ⟨d', out ++ [h]⟩ := by
  intro pre post e
  simp only at e
  rcases List.append_eq_append_iff.mp e with ⟨u, e1, e2⟩ | ⟨u, e1, e2⟩
  · cases u with
    | nil =>
      simp at e2 e1
      rw [e1]
      exact hh e2.1
    | cons y u => simp at e2
  · cases u with
    | nil =>
      simp at e2 e1
      rw [← e1]
      exact hh e2.1.symm
    | cons y u =>
      simp at e2
      obtain ⟨rfl, -⟩ := e2
      exact hg pre u e1

section
variable {ic : Bool} {G : Name → Prop} {ix : File → Nat}

/-- The state when the body of `h` is being included. -/
theorem entering (hs : Sound ic G ix) {p : Name} {h : File} {tu : Tu} (hp : G p) (hl : lookup ic p = some h) (hv : Inv ic G tu)
    (hd : Done ic G ix (ix h) tu) {g : File} (hg : guard h = some g) :
    Inv ic G { tu with defined := g :: tu.defined } ∧ ∀ k, k < ix h → Done ic G ix k { tu with defined := g :: tu.defined } := by
  refine ⟨⟨hv.nodup, fun x hx => ⟨(hv.files x hx).1, by obtain ⟨y, hy, hz⟩ := (hv.files x hx).2; exact ⟨y, by simp [hy], hz⟩⟩, hv.order⟩, ?_⟩
  intro k hk x hf y hy hx hxk
  rcases List.mem_cons.mp hx with rfl | hx
  · obtain ⟨q, hq, hlq⟩ := hf
    have := hs.unique q p x h y hq hp hlq hl hy hg
    subst this; omega
  · exact hd x hf y hy hx (by omega)

/-- Reading a header other than TestFailMessage.h. -/
def Keeps (ic : Bool) (G : Name → Prop) (ix : File → Nat) (n : Nat) : Prop :=
  ∀ p h tu tu', G p → lookup ic p = some h → ix h < n → Inv ic G tu → Done ic G ix (ix h) tu →
    (h = .Testing_Types_TestFailMessage → .Core_String_String ∈ tu.out) → Good tu → read ic n tu p = .ok tu' → Good tu'

theorem keeps_list (hs : Sound ic G ix) {n : Nat} (hi : Keeps ic G ix n) (k : Nat) (hk : k < n) : ∀ (ps : List Name) (tu tu' : Tu),
    (∀ p ∈ ps, G p ∧ ∃ h, lookup ic p = some h ∧ ix h ≤ k) →
    (∀ a p b, ps = a ++ p :: b → lookup ic p = some .Testing_Types_TestFailMessage →
      .Core_String_String ∈ tu.out ∨ ∃ q ∈ a, lookup ic q = some .Testing_Types_TestCase) →
    Inv ic G tu → Done ic G ix k tu → Good tu → ps.foldlM (read ic n) tu = .ok tu' → Good tu'
  | [], tu, tu', _, _, _, _, hg, e => by cases e; exact hg
  | p :: ps, tu, tu', hp, ht, hv, hd, hg, e => by
    obtain ⟨hgp, h, hl, hx⟩ := hp p (by simp)
    have hd' : Done ic G ix (ix h) tu := fun x hf g hg hx' hk' => hd x hf g hg hx' (by omega)
    obtain ⟨t1, e1, s1, m1, -⟩ := includes_all hs n p h tu hgp hl (by omega) hv hd'
    rw [List.foldlM_cons, e1] at e
    have g1 : Good t1 := hi p h tu t1 hgp hl (by omega) hv hd' (by
      rintro rfl
      rcases ht [] p ps rfl hl with h | ⟨q, hq, -⟩
      · exact h
      · cases hq) hg e1
    refine keeps_list hs hi k hk ps t1 tu' (fun q hq => hp q (by simp [hq])) ?_ s1.inv (s1.done hd) g1 e
    intro a q b hab hlq
    rcases ht (p :: a) q b (by rw [hab]; rfl) hlq with h | ⟨r, hr, hlr⟩
    · exact .inl (s1.grows _ h)
    · rcases List.mem_cons.mp hr with rfl | hr
      · rw [hl] at hlr
        injection hlr with hlr
        subst hlr
        have hm := m1 rfl
        obtain ⟨u, w, huw⟩ := List.append_of_mem hm
        have := reach_before s1.inv.order 3 .Testing_Types_TestCase u w huw .Core_String_String (by decide +kernel)
        exact .inl (by rw [huw]; exact List.mem_append_left _ this)
      · exact .inr ⟨r, hr, hlr⟩

/-- Only Testing/Types.h includes TestFailMessage.h, and it includes TestCase.h before. -/
theorem testFailMessage_after (ic : Bool) (h : File) (a : List Name) (p : Name) (b : List Name) (e : includes h = a ++ p :: b)
    (hl : lookup ic p = some .Testing_Types_TestFailMessage) : ∃ q ∈ a, lookup ic q = some .Testing_Types_TestCase := by
  have hm : ∀ f, ((includes f).all fun q => q != .exact .Testing_Types_TestFailMessage && q != .lowered .Testing_Types_TestFailMessage) ||
      f == .Testing_Types := by intro f; cases f <;> decide +kernel
  have hp : p = .exact .Testing_Types_TestFailMessage ∨ p = .lowered .Testing_Types_TestFailMessage := by
    cases p with
    | exact y => simp only [lookup] at hl; injection hl with hl; subst hl; exact .inl rfl
    | lowered y =>
      cases ic
      · exact absurd hl (by simp [lookup])
      · simp only [lookup, if_true] at hl; injection hl with hl; subst hl; exact .inr rfl
  have := hm h
  rw [Bool.or_eq_true] at this
  rcases this with h1 | h1
  · have := List.all_eq_true.mp h1 p (by rw [e]; simp)
    rcases hp with rfl | rfl <;> simp at this
  · have : h = .Testing_Types := by simpa using h1
    subst this
    have hinc : includes .Testing_Types = [.exact .Testing_Types_TestCase, .exact .Testing_Types_TestFailMessage,
      .exact .Testing_Types_TestFunction, .exact .Testing_Types_TestRegistry] := rfl
    rw [hinc] at e
    cases a with
    | nil => injection e with e1 e2; subst e1; rcases hp with h | h <;> cases h
    | cons x a => injection e with e1 e2; subst e1; exact ⟨.exact .Testing_Types_TestCase, by simp, rfl⟩

theorem keeps_all (hs : Sound ic G ix) : ∀ n, Keeps ic G ix n
  | 0 => fun _ _ _ _ _ _ h => absurd h (by omega)
  | n + 1 => by
    intro p h tu tu' hp hl hx hv hd ht hg e
    obtain ⟨h', hl', -, hinc⟩ := hs.found p hp
    rw [hl] at hl'; injection hl' with hl'; subst hl'
    have hlist : ∀ t t', Inv ic G t → (0 < ix h → Done ic G ix (ix h - 1) t) → Good t → (includes h).foldlM (read ic n) t = .ok t' →
        Good t' ∧ ∀ x ∈ t.out, x ∈ t'.out := by
      intro t t' hv hd hg e
      cases hc : (includes h) with
      | nil => rw [hc] at e; cases e; exact ⟨hg, fun _ h => h⟩
      | cons q qs =>
        have h0 : 0 < ix h := by
          obtain ⟨-, g, -, c, -⟩ := hinc q (by simp [hc])
          omega
        have hb : ∀ q ∈ includes h, G q ∧ ∃ g, lookup ic q = some g ∧ ix g ≤ ix h - 1 := fun q hq => by
          obtain ⟨a, g, b, c, d⟩ := hinc q hq
          exact ⟨a, g, b, by omega⟩
        refine ⟨keeps_list hs (keeps_all hs n) (ix h - 1) (by omega) (includes h) t t' hb ?_ hv (hd h0) hg e, ?_⟩
        · intro a p b hab hlp
          exact .inr (testFailMessage_after ic h a p b hab hlp)
        · obtain ⟨t2, e2, s, -⟩ := includes_list (includes_all hs n) (ix h - 1) (by omega) (includes h) t hb hv (hd h0)
          rw [e] at e2
          cases e2
          exact s.grows
    rw [read, hl] at e
    simp only at e
    cases hgd : (guard h) with
    | none =>
      rw [hgd] at e
      simp only at e
      exact (hlist tu tu' hv (fun _ x hf g hg hx' hk' => hd x hf g hg hx' (by omega)) hg e).1
    | some g =>
      rw [hgd] at e
      simp only at e
      by_cases hdef : g ∈ tu.defined
      · rw [if_pos hdef] at e
        cases e; exact hg
      · rw [if_neg hdef] at e
        obtain ⟨hv1, hd1⟩ := entering hs hp hl hv hd hgd
        cases er : (includes h).foldlM (read ic n) { tu with defined := g :: tu.defined } with
        | error x => rw [er] at e; cases e
        | ok t =>
          rw [er] at e
          cases e
          obtain ⟨a, b⟩ := hlist _ t hv1 (fun h0 => hd1 _ (by omega)) hg er
          exact good_append (d := t.defined) a (fun hh => b _ (ht hh))

/-- A source file that does not name TestFailMessage.h itself. -/
theorem translate_good (hs : Sound ic G ix) (ps : List Name) (hp : ∀ p ∈ ps, G p)
    (hn : ∀ p ∈ ps, lookup ic p ≠ some .Testing_Types_TestFailMessage) (tu : Tu) (e : translate ic ps = .ok tu) : Good tu := by
  have hv : Inv ic G {} := ⟨by simp, by simp, by simp⟩
  refine keeps_list hs (keeps_all hs 200) 199 (by omega) ps {} tu (fun p hx => ?_) ?_ hv (by intro _ _ _ _ h; simp at h) ?_ e
  · obtain ⟨h, a, b, -⟩ := hs.found p (hp p hx)
    exact ⟨hp p hx, h, a, by omega⟩
  · intro a p b hab hl
    exact absurd hl (hn p (by rw [hab]; simp))
  · intro pre post h
    simp at h

end

theorem compileFrom_append (c : Bool) (x : Reject) : ∀ (a b seen : List File), compileFrom c seen a = .error x →
    compileFrom c seen (a ++ b) = .error x
  | [], b, seen, h => by cases h
  | f :: a, b, seen, h => by
    rw [compileFrom] at h
    rw [List.cons_append, compileFrom]
    split
    · rename_i g hg; rw [hg] at h; exact h
    · rename_i hg
      rw [hg] at h
      simp only at h
      split
      · rename_i hs; rw [if_pos hs] at h; exact h
      · rename_i hs; rw [if_neg hs] at h; exact compileFrom_append c x a b _ h

/-- What is read was named or is included by something named. -/
theorem read_list {n : Nat} {ic : Bool} (hi : ∀ tu tu' p, read ic n tu p = .ok tu' →
      ∀ x ∈ tu'.out, x ∈ tu.out ∨ ∃ h, lookup ic p = some h ∧ (x = h ∨ Spec.Reaches h x)) :
    ∀ (ps : List Name) (tu tu' : Tu), ps.foldlM (read ic n) tu = .ok tu' →
      ∀ x ∈ tu'.out, x ∈ tu.out ∨ ∃ p ∈ ps, ∃ h, lookup ic p = some h ∧ (x = h ∨ Spec.Reaches h x)
  | [], tu, tu', h, x, hx => by cases h; exact .inl hx
  | p :: ps, tu, tu', h, x, hx => by
    rw [List.foldlM_cons] at h
    cases hr : read ic n tu p with
    | error x => rw [hr] at h; cases h
    | ok t =>
      rw [hr] at h
      rcases read_list hi ps t tu' h x hx with h1 | ⟨q, hq, h1⟩
      · rcases hi tu t p hr x h1 with h2 | h2
        · exact .inl h2
        · exact .inr ⟨p, by simp, h2⟩
      · exact .inr ⟨q, by simp [hq], h1⟩

theorem lookup_true {ic : Bool} {p : Name} {f : File} (h : lookup ic p = some f) : lookup true p = some f := by
  cases p with
  | exact y => exact h
  | lowered y => cases ic <;> simp_all [lookup]

theorem read_one (ic : Bool) : ∀ n tu tu' p, read ic n tu p = .ok tu' →
    ∀ x ∈ tu'.out, x ∈ tu.out ∨ ∃ h, lookup ic p = some h ∧ (x = h ∨ Spec.Reaches h x)
  | 0, tu, tu', p, h => by rw [read] at h; cases h
  | n + 1, tu, tu', p, h => by
    rw [read] at h
    split at h
    · cases h
    rename_i f hf
    have key : ∀ t t', List.foldlM (read ic n) t (includes f) = .ok t' →
        ∀ x ∈ t'.out, x ∈ t.out ∨ Spec.Reaches f x := by
      intro t t' e x hx
      rcases read_list (read_one ic n) _ _ _ e x hx with h1 | ⟨q, hq, g, hg, h1⟩
      · exact .inl h1
      · have := Spec.Reaches.direct hq (lookup_true hg)
        rcases h1 with rfl | h1
        · exact .inr this
        · exact .inr (.through this h1)
    intro x hx
    split at h
    · rcases key _ _ h x hx with h1 | h1
      · exact .inl h1
      · exact .inr ⟨f, hf, .inr h1⟩
    split at h
    · cases h; exact .inl hx
    · rename_i hd y z w
      cases hr : List.foldlM (read ic n) { tu with defined := y :: tu.defined } (includes f) with
      | error x => rw [hr] at h; cases h
      | ok t =>
        rw [hr] at h
        cases h
        rcases List.mem_append.mp hx with hx | hx
        · rcases key _ _ hr x hx with h1 | h1
          · exact .inl h1
          · exact .inr ⟨f, hf, .inr h1⟩
        · exact .inr ⟨f, hf, .inl (by simpa using hx)⟩

/-- If what is included has been read, so has everything that is reached. -/
theorem reaches_mem {ic : Bool} {out : List File}
    (ho : ∀ pre h post, out = pre ++ h :: post → ∀ q ∈ includes h, ∃ g, lookup ic q = some g ∧ g ∈ pre) {f g : File}
    (h : Spec.Reaches f g) : f ∈ out → g ∈ out := by
  induction h with
  | direct hq hl =>
    intro hf
    obtain ⟨a, b, hab⟩ := List.append_of_mem hf
    obtain ⟨x, hx, hm⟩ := ho a _ b hab _ hq
    rw [lookup_true hx] at hl
    injection hl with hl
    subst hl
    rw [hab]; exact List.mem_append_left _ hm
  | through _ _ ih1 ih2 => exact fun hf => ih2 (ih1 hf)

/-- The same for a header without a body. -/
theorem reaches_mem_of_includes {ic : Bool} {out : List File}
    (ho : ∀ pre h post, out = pre ++ h :: post → ∀ q ∈ includes h, ∃ g, lookup ic q = some g ∧ g ∈ pre) {f g : File}
    (h : Spec.Reaches f g) : (∀ q ∈ includes f, ∃ x, lookup ic q = some x ∧ x ∈ out) → g ∈ out := by
  induction h with
  | direct hq hl =>
    intro hf
    obtain ⟨x, hx, hm⟩ := hf _ hq
    rw [lookup_true hx] at hl; cases hl
    exact hm
  | through _ h2 ih1 _ => exact fun hf => reaches_mem ho h2 (ih1 hf)

end Caitlyn.Headers
