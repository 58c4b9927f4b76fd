import Verif.Model.Kmp
import Verif.Proofs.Search

/-! # Knuth-Morris-Pratt: invariants of the loops -/

namespace Caitlyn.Kmp

/-- `v` is the right entry of the failure table at index `i`. -/
def IsFail (p : List UInt8) (i v : Nat) : Prop :=
  (i = 0 ∧ v = npos) ∨
  (0 < i ∧ v < i ∧ p.take v <:+ p.take i ∧ ∀ k, k < i → p.take k <:+ p.take i → k ≤ v)

theorem strAt_lt {p : List UInt8} {i : Nat} (h : i < p.length) : strAt p i = .ok p[i] := by
  unfold strAt vecGet
  rw [if_neg (by omega), List.getElem?_eq_getElem h]

theorem vecGet_some {α} {v : List α} {i : Nat} {x : α} (h : v[i]? = some x) : vecGet v i = .ok x := by
  unfold vecGet; rw [h]

/-- Suffix of an extended word. -/
theorem suffix_concat_iff {α} (a w : List α) (x c : α) : a ++ [x] <:+ w ++ [c] ↔ a <:+ w ∧ x = c := by
  constructor
  · rintro ⟨t, h⟩
    rw [← List.append_assoc] at h
    have := List.append_inj' h rfl
    exact ⟨⟨t, this.1⟩, by simpa using this.2⟩
  · rintro ⟨⟨t, h⟩, rfl⟩
    exact ⟨t, by rw [← h]; simp⟩

theorem take_succ' {α} (p : List α) (k : Nat) (h : k < p.length) : p.take (k + 1) = p.take k ++ [p[k]] := by
  rw [List.take_succ, List.getElem?_eq_getElem h]; rfl

theorem suffix_step {α} (p w : List α) (c : α) (k : Nat) (h : k < p.length) :
    p.take (k + 1) <:+ w ++ [c] ↔ p.take k <:+ w ∧ p[k] = c := by
  rw [take_succ' p k h, suffix_concat_iff]

theorem suffix_of_suffix {α} {a b w : List α} (ha : a <:+ w) (hb : b <:+ w) (h : a.length ≤ b.length) :
    a <:+ b := List.suffix_of_suffix_length_le ha hb h

/-- The inner loop: from a state `j` it finds the longest prefix of the pattern that is a suffix of the
extended word, among those of length at most `j + 1`. -/
theorem back_spec (p : List UInt8) (f : List Nat) (w : List UInt8) (c : UInt8) (hp : p.length < npos) :
    ∀ (fuel j : Nat), j < p.length → j + 1 < fuel →
      (∀ i, i ≤ j → ∃ v, f[i]? = some v ∧ IsFail p i v) → p.take j <:+ w →
      ∃ r, back p f c fuel j = .ok r ∧ wadd r 1 ≤ j + 1 ∧ p.take (wadd r 1) <:+ w ++ [c] ∧
        ∀ k, k ≤ j + 1 → p.take k <:+ w ++ [c] → k ≤ wadd r 1 := by
  intro fuel
  induction fuel with
  | zero => intro j _ h; omega
  | succ n ih =>
    intro j hj hf hfail hw
    simp only [back]
    rw [if_neg (by omega), strAt_lt hj]
    simp only [bind, Except.bind]
    by_cases hc : p[j] = c
    · rw [if_pos hc]
      have e : wadd j 1 = j + 1 := by
        unfold wadd; rw [Nat.mod_eq_of_lt (by unfold npos at hp; unfold twoPow64; omega)]
      refine ⟨j, rfl, by omega, ?_, fun k hk _ => by omega⟩
      rw [e]; exact (suffix_step p w c j hj).mpr ⟨hw, hc⟩
    · rw [if_neg hc]
      obtain ⟨v, hv, hfv⟩ := hfail j (Nat.le_refl _)
      rw [vecGet_some hv]
      have step : ∀ k, k ≤ j + 1 → p.take k <:+ w ++ [c] →
          k = 0 ∨ ∃ k', k = k' + 1 ∧ k' < j ∧ p.take k' <:+ w ∧ p.take k' <:+ p.take j := by
        intro k hk hs
        cases k with
        | zero => exact .inl rfl
        | succ k' =>
          right
          have hk' : k' < p.length := by omega
          obtain ⟨h1, h2⟩ := (suffix_step p w c k' hk').mp hs
          have hne : k' ≠ j := by rintro rfl; exact hc h2
          refine ⟨k', rfl, by omega, h1, suffix_of_suffix h1 hw ?_⟩
          simp; omega
      rcases hfv with ⟨rfl, rfl⟩ | ⟨hpos, hlt, hsuf, hmax⟩
      · -- no shorter prefix
        have e : wadd npos 1 = 0 := by decide
        have hb : back p f c n npos = .ok npos := by
          obtain ⟨m, rfl⟩ : ∃ m, n = m + 1 := ⟨n - 1, by omega⟩
          simp [back]
        refine ⟨npos, hb, by rw [e]; omega, by rw [e]; simp, ?_⟩
        intro k hk hs
        rcases step k hk hs with h | ⟨k', _, h, _⟩
        · omega
        · omega
      · obtain ⟨r, h1, h2, h3, h4⟩ := ih v (by omega) (by omega)
          (fun i hi => hfail i (by omega)) (hsuf.trans hw)
        refine ⟨r, h1, by omega, h3, ?_⟩
        intro k hk hs
        rcases step k hk hs with h | ⟨k', e, h, _, h5⟩
        · omega
        · exact h4 k (by have := hmax k' h h5; omega) hs

theorem failureLoop_spec (p : List UInt8) (hp : p.length < npos) :
    ∀ (k i j : Nat) (f : List Nat), i + k = p.length → f.length = p.length + 1 →
      (∀ l, l ≤ i → ∃ v, f[l]? = some v ∧ IsFail p l v) → f[i]? = some j →
      ∃ f', failureLoop p k i j f = .ok f' ∧ f'.length = p.length + 1 ∧
        ∀ l, l ≤ p.length → ∃ v, f'[l]? = some v ∧ IsFail p l v := by
  intro k
  induction k with
  | zero =>
    intro i j f hik hl hf _
    refine ⟨f, rfl, hl, fun l h => hf l (by omega)⟩
  | succ k ih =>
    intro i j f hik hl hf hj
    have hi : i < p.length := by omega
    simp only [failureLoop, strAt_lt hi, bind, Except.bind]
    -- the state for the next index
    have key : ∃ r, back p f p[i] (p.length + 2) j = .ok r ∧ IsFail p (i + 1) (wadd r 1) := by
      obtain ⟨v, hv, hfv⟩ := hf i (Nat.le_refl _)
      rw [hj] at hv; injection hv with hv; subst hv
      rcases hfv with ⟨rfl, rfl⟩ | ⟨hpos, hlt, hsuf, hmax⟩
      · refine ⟨npos, by simp [back], .inr ⟨by omega, ?_, ?_, ?_⟩⟩
        · decide
        · rw [show wadd npos 1 = 0 by decide]; simp
        · intro k' hk' _; omega
      · obtain ⟨r, h1, h2, h3, h4⟩ := back_spec p f (p.take i) p[i] hp (p.length + 2) j (by omega)
          (by omega) (fun l hl' => hf l (by omega)) hsuf
        refine ⟨r, h1, .inr ⟨by omega, by omega, ?_, ?_⟩⟩
        · rw [take_succ' p i hi]; exact h3
        · intro k' hk' hs
          rw [take_succ' p i hi] at hs
          cases k' with
          | zero => omega
          | succ k'' =>
            have := (suffix_step p (p.take i) p[i] k'' (by omega)).mp hs
            have := hmax k'' (by omega) this.1
            exact h4 _ (by omega) hs
    obtain ⟨r, hr, hfr⟩ := key
    rw [hr]
    simp only [vecSet]
    rw [if_pos (by omega)]
    refine ih (i + 1) (wadd r 1) (f.set (i + 1) (wadd r 1)) (by omega) (by simp [hl]) ?_ ?_
    · intro l hl'
      by_cases e : l = i + 1
      · subst e
        exact ⟨_, by rw [List.getElem?_set_self (by omega)], hfr⟩
      · rw [List.getElem?_set_ne (by omega)]
        exact hf l (by omega)
    · rw [List.getElem?_set_self (by omega)]

theorem failureVec_spec (p : List UInt8) (hp : p.length < npos) :
    ∃ f, failureVec p = .ok f ∧ ∀ l, l ≤ p.length → ∃ v, f[l]? = some v ∧ IsFail p l v := by
  obtain ⟨f, h1, _, h3⟩ := failureLoop_spec p hp p.length 0 npos
    ((List.replicate (p.length + 1) 0).set 0 npos) (by omega) (by simp)
    (by
      intro l hl
      have : l = 0 := by omega
      subst this
      exact ⟨npos, by rw [List.getElem?_set_self (by simp)], .inl ⟨rfl, rfl⟩⟩)
    (by rw [List.getElem?_set_self (by simp)])
  refine ⟨f, ?_, h3⟩
  unfold failureVec vecSet
  simp only [bind, Except.bind]
  rw [if_pos (by simp)]
  simp only []
  rw [vecGet_some (List.getElem?_set_self (by simp))]
  exact h1

theorem searchLoop_spec (p : List UInt8) (hp : p.length < npos) (f : List Nat)
    (hf : ∀ l, l ≤ p.length → ∃ v, f[l]? = some v ∧ IsFail p l v) :
    ∀ (text w : List UInt8) (j : Nat), j < p.length → p.take j <:+ w →
      (∀ k, k ≤ p.length → p.take k <:+ w → k ≤ j) →
      ∃ b, searchLoop p f text j = .ok b ∧
        (b = true ↔ ∃ u v, text = u ++ v ∧ u ≠ [] ∧ p <:+ w ++ u) := by
  intro text
  induction text with
  | nil =>
    intro w j _ _ _
    refine ⟨false, rfl, ?_⟩
    simp only [Bool.false_eq_true, false_iff, not_exists, not_and]
    intro u v h hu
    have := List.append_eq_nil_iff.mp h.symm
    exact absurd this.1 hu
  | cons c text ih =>
    intro w j hj hw hmax
    obtain ⟨r, h1, h2, h3, h4⟩ := back_spec p f w c hp (p.length + 2) j hj (by omega)
      (fun i hi => hf i (by omega)) hw
    simp only [searchLoop, h1, bind, Except.bind]
    by_cases he : wadd r 1 = p.length
    · rw [if_pos he]
      refine ⟨true, rfl, ?_⟩
      simp only [true_iff]
      refine ⟨[c], text, rfl, by simp, ?_⟩
      rw [he, List.take_length] at h3
      exact h3
    · rw [if_neg he]
      have hmax' : ∀ k, k ≤ p.length → p.take k <:+ w ++ [c] → k ≤ wadd r 1 := by
        intro k hk hs
        cases k with
        | zero => omega
        | succ k' =>
          have := (suffix_step p w c k' (by omega)).mp hs
          have := hmax k' (by omega) this.1
          exact h4 _ (by omega) hs
      obtain ⟨b, hb, hiff⟩ := ih (w ++ [c]) (wadd r 1) (by omega) h3 hmax'
      refine ⟨b, hb, hiff.trans ?_⟩
      constructor
      · rintro ⟨u, v, e, hu, hs⟩
        exact ⟨c :: u, v, by rw [e]; rfl, by simp, by simpa using hs⟩
      · rintro ⟨u, v, e, hu, hs⟩
        cases u with
        | nil => exact absurd rfl hu
        | cons d u =>
          injection e with e1 e2
          subst e1
          refine ⟨u, v, e2, ?_, by simpa using hs⟩
          rintro rfl
          have := hmax' p.length (Nat.le_refl _) (by simpa using hs)
          omega

theorem kmp_spec (p text : List UInt8) (hp : p.length < npos) (hne : p ≠ []) :
    ∃ b, kmp p text = .ok b ∧ (b = true ↔ p <:+: text) := by
  obtain ⟨f, h1, h2⟩ := failureVec_spec p hp
  have hpos : 0 < p.length := List.length_pos_iff.mpr hne
  obtain ⟨b, h3, h4⟩ := searchLoop_spec p hp f h2 text [] 0 hpos (by simp) (by
    intro k hk hs
    have := List.suffix_nil.mp hs
    have := congrArg List.length this
    rw [List.length_take, List.length_nil] at this; omega)
  refine ⟨b, ?_, h4.trans ?_⟩
  · unfold kmp; rw [h1]; exact h3
  · constructor
    · rintro ⟨u, v, rfl, _, t, hs⟩
      exact ⟨t, v, by rw [hs]; simp⟩
    · rintro ⟨s, t, rfl⟩
      exact ⟨s ++ p, t, rfl, by simp [hne], ⟨s, by simp⟩⟩

end Caitlyn.Kmp
