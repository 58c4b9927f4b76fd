import Verif.Spec.StrMemCount
import Verif.Proofs.StrMemRefs

/-! # Lemmas: the allocations of statements on strings -/

namespace Caitlyn
open Spec StrMem

theorem attempts_none (fails : Nat → Bool) (t : Nat) : Attempts fails t 0 false t := .inl ⟨rfl, rfl, fun _ h => by omega⟩

theorem attempts_one_ok {fails : Nat → Bool} {t : Nat} (h : fails t = false) : Attempts fails t 1 false (t + 1) :=
  .inl ⟨rfl, rfl, fun k hk => by
    have : k = 0 := by omega
    subst this
    exact h⟩

theorem attempts_one_fail {fails : Nat → Bool} {t : Nat} (h : fails t = true) : Attempts fails t 1 true (t + 1) :=
  .inr ⟨rfl, 0, by omega, rfl, h, fun _ h => by omega⟩

theorem Spec.Attempts.more {fails : Nat → Bool} {t j t1 : Nat} (h : Attempts fails t j true t1) (k : Nat) :
    Attempts fails t (j + k) true t1 := by
  rcases h with ⟨h, _⟩ | ⟨_, i, hi, h⟩
  · cases h
  · exact .inr ⟨rfl, i, by omega, h⟩

theorem Spec.Attempts.trans {fails : Nat → Bool} {t j t1 k t2 : Nat} {f : Bool} (h : Attempts fails t j false t1)
    (h' : Attempts fails t1 k f t2) : Attempts fails t (j + k) f t2 := by
  rcases h with ⟨_, rfl, h⟩ | ⟨h, _⟩
  · have hall : ∀ i, i < j + k → ¬ i < j → ∃ l, l < k ∧ t + i = t + j + l := fun i hi hj => ⟨i - j, by omega, by omega⟩
    rcases h' with ⟨rfl, rfl, h'⟩ | ⟨rfl, i, hi, rfl, h1, h2⟩
    · refine .inl ⟨rfl, by omega, fun i hi => ?_⟩
      by_cases hj : i < j
      · exact h i hj
      · obtain ⟨l, hl, e⟩ := hall i hi hj
        rw [e]
        exact h' l hl
    · refine .inr ⟨rfl, j + i, by omega, by omega, by rw [← Nat.add_assoc]; exact h1, fun l hl => ?_⟩
      by_cases hj : l < j
      · exact h l hj
      · obtain ⟨m, hm, e⟩ := hall l (by omega) hj
        rw [e]
        exact h2 m (by omega)
  · cases h

theorem repeat_shift (f : Nat → Nat) (j c : Nat) : Nat.repeat f (j + 1) c = Nat.repeat f j (f c) := by
  induction j with
  | zero => rfl
  | succ j ih => exact congrArg f ih

theorem grows_zero {P : Policy} {cap n j : Nat} (h : n ≤ cap) (hg : GrowsBy P cap n j) : j = 0 := by
  rcases j with _ | j
  · rfl
  · have := hg.2 0 (by omega)
    simp only [Nat.repeat] at this
    omega

theorem grows_succ {P : Policy} {cap n j : Nat} (h : cap < n) (hg : GrowsBy P cap n j) : ∃ k, j = k + 1 ∧ GrowsBy P (P.one cap) n k := by
  rcases j with _ | j
  · have := hg.1
    simp only [Nat.repeat] at this
    omega
  · refine ⟨j, rfl, ?_, fun i hi => ?_⟩
    · rw [← repeat_shift]
      exact hg.1
    · rw [← repeat_shift]
      exact hg.2 (i + 1) (by omega)

section
variable {P : Policy} {fails : Nat → Bool}

theorem build_attempts (cs : Str) : ∀ (cap len t j : Nat), len ≤ cap → GrowsBy P cap (len + cs.length) j →
    Attempts fails t j (build P fails cs cap len t).1.isNone (build P fails cs cap len t).2 := by
  induction cs with
  | nil =>
    intro cap len t j h hg
    obtain rfl := grows_zero (by simpa using h) hg
    exact attempts_none fails t
  | cons c cs ih =>
    intro cap len t j h hg
    rw [List.length_cons, show len + (cs.length + 1) = len + 1 + cs.length by omega] at hg
    simp only [build]
    by_cases hl : len < cap
    · rw [if_pos hl]
      exact ih cap (len + 1) t j (by omega) hg
    · rw [if_neg hl]
      obtain ⟨k, rfl, hk⟩ := grows_succ (by omega) hg
      rw [Nat.add_comm k 1]
      cases hf : fails t with
      | true => exact (attempts_one_fail hf).more k
      | false =>
        exact (attempts_one_ok hf).trans (ih (P.one cap) (len + 1) (t + 1) k (by have := P.one_lt cap; omega) hk)

theorem push_attempts {st a} (i : Inv st a) (x : Nat) (c : Chr) {ok : Bool} {st' : State} (h : push P fails st x c = (ok, st')) :
    Attempts fails st.tries (insertGrows st x 1) (!ok) st'.tries ∧
    (ok = true → (st'.elems x).length = (st.elems x).length + 1 ∧
      (st'.vars x).cap = if 1 ≤ roomOf st x then (st.vars x).cap else P.one (st.vars x).cap) := by
  have hi := i.push x c h
  have hlen : ok = true → (st'.elems x).length = (st.elems x).length + 1 := by
    rintro rfl
    have := hi.texts x
    rw [this, i.texts]
    simp
  rcases push_cases (P := P) (fails := fails) i x c with ⟨h1, e⟩ | ⟨h1, h2, e⟩ | ⟨h1, h2, e⟩
  · rw [e] at h
    cases h
    simp only [insertGrows, if_pos (show 1 ≤ roomOf st x from h1), inPlace_tries, inPlace_vars]
    exact ⟨attempts_none _ _, fun _ => ⟨hlen rfl, trivial⟩⟩
  · rw [e] at h
    cases h
    simp only [insertGrows, if_neg (show ¬ 1 ≤ roomOf st x by omega)]
    exact ⟨attempts_one_fail h2, fun h => by cases h⟩
  · rw [e] at h
    cases h
    simp only [insertGrows, if_neg (show ¬ 1 ≤ roomOf st x by omega)]
    refine ⟨?_, fun _ => ⟨hlen rfl, by simp [State.replace]⟩⟩
    have : ({ st with tries := st.tries + 1 }.replace x (st.elems x ++ [c]) (P.one (st.vars x).cap)).tries = st.tries + 1 := by
      simp only [State.replace, State.release]
      split <;> rfl
    rw [this]
    exact attempts_one_ok h2

/-- One more element, and then the others. -/
theorem push_then {st a} (i : Inv st a) (x : Nat) (c : Chr) {ok : Bool} {st' : State} (h : push P fails st x c = (ok, st')) (n j : Nat)
    (hg : GrowsBy P (st.vars x).cap ((st.elems x).length + (n + 1)) j) :
    ∃ k, j = insertGrows st x 1 + k ∧ Attempts fails st.tries (insertGrows st x 1) (!ok) st'.tries ∧
      (ok = true → GrowsBy P (st'.vars x).cap ((st'.elems x).length + n) k) := by
  obtain ⟨h1, h2⟩ := push_attempts i x c h
  have hr := i.room x
  by_cases hc : 1 ≤ roomOf st x
  · refine ⟨j, by simp [insertGrows, hc], h1, fun hok => ?_⟩
    obtain ⟨e1, e2⟩ := h2 hok
    rw [e1, e2, if_pos hc, show (st.elems x).length + 1 + n = (st.elems x).length + (n + 1) by omega]
    exact hg
  · obtain ⟨k, rfl, hk⟩ := grows_succ (by unfold roomOf at hc; omega) hg
    refine ⟨k, by simp [insertGrows, hc]; omega, h1, fun hok => ?_⟩
    obtain ⟨e1, e2⟩ := h2 hok
    rw [e1, e2, if_neg hc, show (st.elems x).length + 1 + n = (st.elems x).length + (n + 1) by omega]
    exact hk

theorem appendLoop_attempts {x : Nat} {cs : Str} : ∀ {st a}, Inv st a → ∀ {ok : Bool} {st' : State},
    appendLoop P fails x cs st = (ok, st') → ∀ j, GrowsBy P (st.vars x).cap ((st.elems x).length + cs.length) j →
    Attempts fails st.tries j (!ok) st'.tries := by
  induction cs with
  | nil =>
    intro st a i ok st' h j hg
    cases h
    obtain rfl := grows_zero (by simpa using i.room x) hg
    exact attempts_none _ _
  | cons c cs ih =>
    intro st a i ok st' h j hg
    simp only [appendLoop] at h
    cases hp : push P fails st x c with
    | mk ok1 st1 =>
      obtain ⟨k, rfl, h1, h2⟩ := push_then i x c hp cs.length j hg
      rw [hp] at h
      cases ok1 with
      | true => exact h1.trans (ih (i.push x c hp) h k (h2 rfl))
      | false => cases h; exact h1.more k

theorem countLoop_attempts {x : Nat} {c : Arg} {n : Nat} : ∀ {st a}, Inv st a → ∀ {ok : Bool} {st' : State},
    countLoop P fails x c n st = .ok (ok, st') → ∀ j, GrowsBy P (st.vars x).cap ((st.elems x).length + n) j →
    Attempts fails st.tries j (!ok) st'.tries := by
  induction n with
  | zero =>
    intro st a i ok st' h j hg
    cases h
    obtain rfl := grows_zero (by simpa using i.room x) hg
    exact attempts_none _ _
  | succ n ih =>
    intro st a i ok st' h j hg
    simp only [countLoop, bind, Except.bind] at h
    cases hr : Arg.read st c with
    | error e => rw [hr] at h; cases h
    | ok ch =>
      rw [hr] at h
      simp only at h
      cases hp : push P fails st x ch with
      | mk ok1 st1 =>
        obtain ⟨k, rfl, h1, h2⟩ := push_then i x ch hp n j hg
        rw [hp] at h
        cases ok1 with
        | true => exact h1.trans (ih (i.push x ch hp) h k (h2 rfl))
        | false => cases h; exact h1.more k

theorem release_tries (st : State) (x : Nat) : (st.release x).tries = st.tries := by
  unfold State.release
  split <;> rfl

theorem replace_tries (st : State) (x : Nat) (s : Str) (cap : Nat) : (st.replace x s cap).tries = st.tries := release_tries st x

theorem become_tries (st : State) (x : Nat) (s : Str) (cap : Nat) : (st.become x s cap).tries = st.tries := by
  unfold State.become
  split
  · exact release_tries st x
  · exact replace_tries st x s cap

theorem insertAt_attempts {st a} (i : Inv st a) (x pos : Nat) (cs : Str) {ok : Bool} {st' : State}
    (h : insertAt P fails st x pos cs = (ok, st')) : Attempts fails st.tries (insertGrows st x cs.length) (!ok) st'.tries := by
  have hr := i.room x
  unfold insertAt at h
  simp only at h
  unfold insertGrows roomOf
  split at h
  · next h0 =>
    cases h
    rw [h0, if_pos (by simp)]
    exact attempts_none _ _
  · next h0 =>
    split at h
    · cases h
      rw [if_pos (by omega), inPlace_tries]
      exact attempts_none _ _
    · rw [if_neg (by omega)]
      split at h
      · next hf => cases h; exact attempts_one_fail hf
      · next hf =>
        cases h
        rw [replace_tries]
        exact attempts_one_ok (by simpa using hf)

theorem twice_attempts (n : Nat) (st : State) : Attempts fails st.tries (if n = 0 then 0 else 2) (!(twice fails n st).1) (twice fails n st).2.tries := by
  unfold twice
  split
  · exact attempts_none _ _
  · cases h1 : fails st.tries with
    | true => exact (attempts_one_fail h1).more 1
    | false =>
      cases h2 : fails (st.tries + 1) with
      | true => exact (attempts_one_ok h1).trans (attempts_one_fail h2)
      | false => exact (attempts_one_ok h1).trans (attempts_one_ok h2)

theorem finish_attempts {t j : Nat} {q : Bool × State} {o : Out} {st' : State} (h : finish q = .ok (o, st'))
    (hq : Attempts fails t j (!q.1) q.2.tries) : Attempts fails t j (decide (o = .noMemory)) st'.tries := by
  obtain ⟨ok, s⟩ := q
  cases ok <;> cases h <;> exact hq

theorem step_attempts {st a} (i : Inv st a) {s : Stmt} {o : Out} {st' : State} (h : step P fails st s = .ok (o, st')) (j : Nat)
    (hn : Needs P st s j) : Attempts fails st.tries j (decide (o = .noMemory)) st'.tries := by
  cases s with
  | literal x cs =>
    have hb := build_attempts (P := P) (fails := fails) cs 0 0 st.tries j (Nat.le_refl _) (by simpa [Needs] using hn)
    simp only [step] at h
    split at h
    · next cap t e =>
      rw [e] at hb
      cases h
      rw [become_tries]
      exact hb
    · next t e =>
      rw [e] at hb
      cases h
      exact hb
  | plus x y z =>
    have hb := twice_attempts (fails := fails) (st.elems y ++ st.elems z).length st
    simp only [Needs] at hn
    have hj : (if (st.elems y ++ st.elems z).length = 0 then 0 else 2) = j := by
      simp only [hn, List.length_eq_zero_iff, List.append_eq_nil_iff]
    rw [hj] at hb
    simp only [step] at h
    split at h
    · next s1 e =>
      rw [e] at hb
      cases h
      rw [become_tries]
      exact hb
    · next s1 e =>
      rw [e] at hb
      cases h
      exact hb
  | substring x y pos count =>
    simp only [step] at h
    simp only [Needs] at hn
    split at h
    · next hp =>
      cases h
      rw [hn, if_pos (.inl (by omega))]
      exact attempts_none _ _
    · next hp =>
      have hb := twice_attempts (fails := fails) (((st.elems y).drop pos).take count).length st
      have hj : (if (((st.elems y).drop pos).take count).length = 0 then 0 else 2) = j := by
        rw [hn]
        congr 1
        rw [List.length_take, List.length_drop, eq_iff_iff]
        omega
      rw [hj] at hb
      split at h
      · next s1 e =>
        rw [e] at hb
        cases h
        rw [become_tries]
        exact hb
      · next s1 e =>
        rw [e] at hb
        cases h
        exact hb
  | copy x y =>
    simp only [step] at h
    simp only [Needs] at hn
    split at h
    · next hxy => cases h; rw [hn, if_pos (.inl hxy)]; exact attempts_none _ _
    · next hxy =>
      split at h
      · next hl => cases h; rw [hn, if_pos (.inr hl), inPlace_tries]; exact attempts_none _ _
      · next hl =>
        rw [hn, if_neg (by simp [hxy]; omega)]
        split at h
        · next hf => cases h; exact attempts_one_fail hf
        · next hf => cases h; rw [replace_tries]; exact attempts_one_ok (by simpa using hf)
  | move x y =>
    simp only [step] at h
    simp only [Needs] at hn
    subst hn
    split at h
    · cases h; exact attempts_none _ _
    · cases h
      simp only [release_tries]
      exact attempts_none _ _
  | clear x =>
    cases h
    cases hn
    rw [inPlace_tries]
    exact attempts_none _ _
  | push x c =>
    simp only [step, bind, Except.bind] at h
    split at h
    · cases h
    · next ch _ =>
      cases hn
      exact finish_attempts h (push_attempts i x ch rfl).1
  | append x cs => exact finish_attempts h (appendLoop_attempts i rfl j hn)
  | appendCount x n c =>
    simp only [step, bind, Except.bind] at h
    split at h
    · cases h
    · next q e => exact finish_attempts h (countLoop_attempts i e j hn)
  | plusAssign x y =>
    simp only [step] at h
    split at h
    · cases h
    · cases hn
      exact finish_attempts h (insertAt_attempts i x _ _ rfl)
  | insert x pos y =>
    simp only [step] at h
    simp only [Needs] at hn
    split at h
    · next hp => cases h; rw [hn, if_pos hp]; exact attempts_none _ _
    · next hp =>
      rw [if_neg hp] at hn
      cases hn
      split at h
      · cases h
      · exact finish_attempts h (insertAt_attempts i x _ _ rfl)
  | insertLit x pos cs =>
    simp only [step] at h
    simp only [Needs] at hn
    split at h
    · next hp => cases h; rw [if_pos hp] at hn; cases hn; exact attempts_none _ _
    · next hp =>
      rw [if_neg hp] at hn
      obtain ⟨k, hk, rfl⟩ := hn
      have hb := build_attempts (P := P) (fails := fails) cs 0 0 st.tries k (Nat.le_refl _) (by simpa using hk)
      split at h
      · next cap t e =>
        rw [e] at hb
        exact finish_attempts h (hb.trans (insertAt_attempts (i.tried t) x pos cs rfl))
      · next t e =>
        rw [e] at hb
        cases h
        exact Attempts.more hb _
  | insertCount x pos n c =>
    simp only [step] at h
    simp only [Needs] at hn
    split at h
    · next hp => cases h; rw [hn, if_pos hp]; exact attempts_none _ _
    · next hp =>
      rw [if_neg hp] at hn
      cases hn
      simp only [bind, Except.bind] at h
      split at h
      · cases h
      · next ch _ =>
        have hl : insertGrows st x n = insertGrows st x (List.replicate n ch).length := by rw [List.length_replicate]
        rw [hl]
        exact finish_attempts h (insertAt_attempts i x pos (List.replicate n ch) rfl)
  | at' r x k =>
    cases hn
    simp only [step] at h
    split at h
    · split at h <;> cases h <;> exact attempts_none _ _
    · cases h; exact attempts_none _ _
  | index r x k =>
    cases hn
    simp only [step] at h
    split at h
    · split at h
      · cases h; exact attempts_none _ _
      · cases h
    · cases h
  | set r c =>
    cases hn
    simp only [step] at h
    split at h
    · cases h
    · split at h
      · cases h
      · cases h; exact attempts_none _ _
  | get r =>
    cases hn
    simp only [step, bind, Except.bind] at h
    split at h
    · cases h
    · cases h; exact attempts_none _ _
  | read x =>
    cases hn
    cases h
    exact attempts_none _ _

/-- The number of times that a vector grows exists. -/
theorem grows_exists (P : Policy) (cap n : Nat) : ∃ j, GrowsBy P cap n j := by
  have hle : ∀ j, j + cap ≤ Nat.repeat P.one j cap := by
    intro j
    induction j with
    | zero => simp [Nat.repeat]
    | succ j ih =>
      have := P.one_lt (Nat.repeat P.one j cap)
      simp only [Nat.repeat]
      omega
  have hex : ∃ j, n ≤ Nat.repeat P.one j cap := ⟨n, by have := hle n; omega⟩
  obtain ⟨j, hj⟩ := hex
  induction j with
  | zero => exact ⟨0, hj, fun _ h => by omega⟩
  | succ j ih =>
    by_cases h : n ≤ Nat.repeat P.one j cap
    · exact ih h
    · refine ⟨j + 1, hj, fun i hi => ?_⟩
      have mono : ∀ a b, a ≤ b → Nat.repeat P.one a cap ≤ Nat.repeat P.one b cap := by
        intro a b hab
        induction b with
        | zero => have : a = 0 := by omega
                  subst this; exact Nat.le_refl _
        | succ b ihb =>
          by_cases e : a = b + 1
          · subst e; exact Nat.le_refl _
          · have := ihb (by omega)
            have := P.one_lt (Nat.repeat P.one b cap)
            simp only [Nat.repeat] at *
            omega
      have := mono i j (by omega)
      omega

theorem needs_exists (P : Policy) (st : State) (s : Stmt) : ∃ j, Needs P st s j := by
  cases s with
  | literal x cs => exact grows_exists P _ _
  | append x cs => exact grows_exists P _ _
  | appendCount x n c => exact grows_exists P _ _
  | insertLit x pos cs =>
    simp only [Needs]
    split
    · exact ⟨0, rfl⟩
    · obtain ⟨k, hk⟩ := grows_exists P 0 cs.length
      exact ⟨_, k, hk, rfl⟩
  | _ => exact ⟨_, rfl⟩

end
end Caitlyn
