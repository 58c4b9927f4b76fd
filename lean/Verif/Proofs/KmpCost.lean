import Verif.Model.Cost
import Verif.Proofs.Kmp

/-! # The number of comparisons of `kmp` -/

namespace Caitlyn.Kmp

/-- The result without the count. -/
def fst {α : Type} : Res (α × Nat) → Res α
  | .ok (a, _) => .ok a
  | .error e => .error e

theorem backC_fst (p : List UInt8) (f : List Nat) (c : UInt8) : ∀ n j, fst (backC p f c n j) = back p f c n j := by
  intro n
  induction n with
  | zero => intro j; rfl
  | succ n ih =>
    intro j
    rw [backC, back]
    split
    · rfl
    · cases strAt p j with
      | error e => rfl
      | ok x =>
        simp only [bind, Except.bind]
        split
        · rfl
        · cases vecGet f j with
          | error e => rfl
          | ok y =>
            simp only []
            rw [← ih y]
            cases backC p f c n y <;> rfl

theorem failureLoopC_fst (p : List UInt8) : ∀ k i j f, fst (failureLoopC p k i j f) = failureLoop p k i j f := by
  intro k
  induction k with
  | zero => intro i j f; rfl
  | succ k ih =>
    intro i j f
    rw [failureLoopC, failureLoop]
    cases strAt p i with
    | error e => rfl
    | ok x =>
      simp only [bind, Except.bind]
      rw [← backC_fst]
      cases backC p f x (p.length + 2) j with
      | error e => rfl
      | ok y =>
        simp only [fst]
        cases vecSet f (i + 1) (wadd y.1 1) with
        | error e => rfl
        | ok f' =>
          simp only []
          rw [← ih]
          cases failureLoopC p k (i + 1) (wadd y.1 1) f' <;> rfl

theorem failureVecC_fst (p : List UInt8) : fst (failureVecC p) = failureVec p := by
  unfold failureVecC failureVec
  simp only [bind, Except.bind]
  cases vecSet (List.replicate (p.length + 1) 0) 0 npos with
  | error e => rfl
  | ok f =>
    simp only []
    cases vecGet f 0 with
    | error e => rfl
    | ok j => exact failureLoopC_fst _ _ _ _ _

theorem searchLoopC_fst (p : List UInt8) (f : List Nat) : ∀ t j, fst (searchLoopC p f t j) = searchLoop p f t j := by
  intro t
  induction t with
  | nil => intro j; rfl
  | cons c t ih =>
    intro j
    rw [searchLoopC, searchLoop, ← backC_fst]
    cases backC p f c (p.length + 2) j with
    | error e => rfl
    | ok y =>
      simp only [bind, Except.bind, fst]
      by_cases h : wadd y.1 1 = p.length
      · rw [if_pos h, if_pos h]; rfl
      · rw [if_neg h, if_neg h, ← ih]
        cases searchLoopC p f t (wadd y.1 1) <;> rfl

theorem kmpC_fst (p t : List UInt8) : fst (kmpC p t) = kmp p t := by
  unfold kmpC kmp
  rw [← failureVecC_fst]
  cases failureVecC p with
  | error e => rfl
  | ok f =>
    simp only [bind, Except.bind, fst]
    rw [← searchLoopC_fst]
    cases searchLoopC p f.1 t 0 <;> rfl

theorem fst_ok {α : Type} {x : Res (α × Nat)} {a : α} (h : fst x = .ok a) : ∃ n, x = .ok (a, n) := by
  cases x with
  | error e => cases h
  | ok y => injection h with h; subst h; exact ⟨y.2, rfl⟩

/-- The potential of a state: how many states are before it. -/
def pot (j : Nat) : Nat := wadd j 1

theorem pot_lt {j : Nat} (h : j < npos) : pot j = j + 1 := by
  unfold pot wadd; rw [Nat.mod_eq_of_lt (by unfold npos at h; unfold twoPow64; omega)]

theorem pot_npos : pot npos = 0 := by decide

/-- The entry at `i` is before `i`. -/
def Low (f : List Nat) (i : Nat) : Prop := ∃ v, f[i]? = some v ∧ (i = 0 ∧ v = npos ∨ v < i)

/-- A mismatch lowers the potential; one comparison may match. -/
theorem backC_cost (p : List UInt8) (f : List Nat) (c : UInt8) (hp : p.length < npos) : ∀ (n j r k : Nat),
    j = npos ∨ j < p.length → (∀ i, i < p.length → i ≤ j → j ≠ npos → Low f i) →
    backC p f c n j = .ok (r, k) →
    k + pot r ≤ pot j + 1 ∧ (j = npos → k = 0) ∧ pot r ≤ pot j ∧ (r = npos ∨ r < p.length) := by
  intro n
  induction n with
  | zero => intro j r k _ _ h; cases h
  | succ n ih =>
    intro j r k hj hf h
    rw [backC] at h
    by_cases hn : j = npos
    · rw [if_pos hn] at h
      injection h with h; injection h with h1 h2; subst h1; subst h2; subst hn
      simp
    · rw [if_neg hn] at h
      have hj : j < p.length := by omega
      rw [strAt_lt hj] at h
      simp only [bind, Except.bind] at h
      by_cases hc : p[j] = c
      · rw [if_pos hc] at h
        injection h with h; injection h with h1 h2; subst h1; subst h2
        exact ⟨by omega, fun e => absurd e hn, Nat.le_refl _, .inr hj⟩
      · rw [if_neg hc] at h
        obtain ⟨v, hv, hfv⟩ := hf j hj (Nat.le_refl _) hn
        rw [vecGet_some hv] at h
        simp only [] at h
        cases hb : backC p f c n v with
        | error e => rw [hb] at h; cases h
        | ok y =>
          rw [hb] at h
          obtain ⟨r', k'⟩ := y
          simp only [pure, Except.pure] at h
          injection h with h; injection h with h1 h2; subst h1; subst h2
          have hpv : pot v < pot j ∧ (v = npos ∨ v < p.length) ∧ (v ≠ npos → v ≤ j) := by
            have h0 := pot_npos
            have h1 := pot_lt (j := j) (by omega)
            rcases hfv with ⟨rfl, rfl⟩ | h2
            · omega
            · have := pot_lt (j := v) (by omega); omega
          have := ih v r' k' hpv.2.1 (fun i hi hiv hvn => hf i hi (by omega) hn) hb
          exact ⟨by omega, fun e => absurd e hn, by omega, this.2.2.2⟩

/-- Two more comparisons per round, less what the potential keeps. -/
theorem failureLoopC_cost (p : List UInt8) (hp : p.length < npos) : ∀ (k i j : Nat) (f f' : List Nat) (n : Nat),
    i + k = p.length → (∀ l, l ≤ i → Low f l) → f[i]? = some j →
    failureLoopC p k i j f = .ok (f', n) →
    (∀ l, l ≤ p.length → Low f' l) ∧ (k = 0 → n = 0) ∧ (0 < k → n + (if j = npos then 2 else 1) ≤ pot j + 2 * k) := by
  intro k
  induction k with
  | zero =>
    intro i j f f' n hik hf hj h
    injection h with h; injection h with h1 h2; subst h1; subst h2
    exact ⟨fun l hl => hf l (by omega), fun _ => rfl, fun h => absurd h (by omega)⟩
  | succ k ih =>
    intro i j f f' n hik hf hj h
    have hi : i < p.length := by omega
    rw [failureLoopC, strAt_lt hi] at h
    simp only [bind, Except.bind] at h
    cases hb : backC p f p[i] (p.length + 2) j with
    | error e => rw [hb] at h; cases h
    | ok y =>
      rw [hb] at h
      obtain ⟨r, c⟩ := y
      simp only [] at h
      obtain ⟨v, hv, hlow⟩ := hf i (Nat.le_refl _)
      rw [hj] at hv; injection hv with hv; subst hv
      have hjr : j = npos ∨ j < p.length := by rcases hlow with h | h <;> omega
      have hpj : pot j ≤ i := by
        rcases hlow with ⟨_, rfl⟩ | h
        · rw [pot_npos]; omega
        · rw [pot_lt (by omega)]; omega
      obtain ⟨h1, h2, h3, h4⟩ := backC_cost p f p[i] hp _ j r c hjr (fun l hl hlj hjn => hf l (by
        rcases hlow with h | h <;> omega)) hb
      have hset : vecSet f (i + 1) (wadd r 1) = .ok (f.set (i + 1) (wadd r 1)) ∧ i + 1 < f.length := by
        by_cases hl : i + 1 < f.length
        · exact ⟨by unfold vecSet; rw [if_pos hl], hl⟩
        · unfold vecSet at h
          rw [if_neg hl] at h; cases h
      rw [hset.1] at h
      simp only [] at h
      cases hl : failureLoopC p k (i + 1) (wadd r 1) (f.set (i + 1) (wadd r 1)) with
      | error e => rw [hl] at h; cases h
      | ok z =>
        rw [hl] at h
        obtain ⟨g, m⟩ := z
        simp only [pure, Except.pure] at h
        injection h with h; injection h with e1 e2; subst e1; subst e2
        have hw : wadd r 1 = pot r := rfl
        rw [hw] at hl
        have hpr : pot r ≤ i := by omega
        obtain ⟨h5, h7, h6⟩ := ih (i + 1) (pot r) _ g m (by omega) (by
          intro l hl'
          by_cases e : l = i + 1
          · subst e
            exact ⟨pot r, by rw [List.getElem?_set_self hset.2], .inr (by omega)⟩
          · unfold Low
            rw [List.getElem?_set_ne (by omega)]
            exact hf l (by omega)) (by rw [List.getElem?_set_self hset.2]) hl
        refine ⟨h5, fun h => absurd h (by omega), fun _ => ?_⟩
        have hpp : pot (pot r) = pot r + 1 := pot_lt (by omega)
        rw [hpp, if_neg (show pot r ≠ npos by omega)] at h6
        by_cases hjn : j = npos
        · have := h2 hjn
          subst hjn
          rw [if_pos rfl]
          rw [pot_npos] at *
          omega
        · rw [if_neg hjn]
          omega

theorem failureVecC_cost (p : List UInt8) (hp : p.length < npos) (hne : p ≠ []) (f : List Nat) (n : Nat)
    (h : failureVecC p = .ok (f, n)) : (∀ l, l ≤ p.length → Low f l) ∧ n + 2 ≤ 2 * p.length := by
  have h0 : failureLoopC p p.length 0 npos ((List.replicate (p.length + 1) 0).set 0 npos) = .ok (f, n) := by
    rw [← h]
    unfold failureVecC vecSet
    simp only [bind, Except.bind]
    rw [if_pos (by simp)]
    simp only []
    rw [vecGet_some (List.getElem?_set_self (by simp))]
  obtain ⟨h1, _, h2⟩ := failureLoopC_cost p hp _ _ _ _ _ _ (by omega) (by
    intro l hl
    have : l = 0 := by omega
    subst this
    exact ⟨npos, by rw [List.getElem?_set_self (by simp)], .inl ⟨rfl, rfl⟩⟩)
    (by rw [List.getElem?_set_self (by simp)]) h0
  have := h2 (List.length_pos_iff.mpr hne)
  rw [if_pos rfl, pot_npos] at this
  exact ⟨h1, by omega⟩

theorem searchLoopC_cost (p : List UInt8) (hp : p.length < npos) (f : List Nat) (hf : ∀ l, l ≤ p.length → Low f l) :
    ∀ (t : List UInt8) (j : Nat) (b : Bool) (n : Nat), j < p.length →
      searchLoopC p f t j = .ok (b, n) → n ≤ j + 2 * t.length := by
  intro t
  induction t with
  | nil => intro j b n _ h; injection h with h; injection h with h1 h2; omega
  | cons c t ih =>
    intro j b n hj h
    rw [searchLoopC] at h
    simp only [bind, Except.bind] at h
    cases hb : backC p f c (p.length + 2) j with
    | error e => rw [hb] at h; cases h
    | ok y =>
      rw [hb] at h
      obtain ⟨r, k⟩ := y
      simp only [] at h
      obtain ⟨h1, h2, h3, h4⟩ := backC_cost p f c hp _ j r k (.inr hj) (fun l hl _ _ => hf l (by omega)) hb
      have hpj := pot_lt (j := j) (by omega)
      have hw : wadd r 1 = pot r := rfl
      by_cases he : wadd r 1 = p.length
      · rw [if_pos he] at h
        injection h with h; injection h with e1 e2; subst e1; subst e2
        simp only [List.length_cons]
        omega
      · rw [if_neg he] at h
        cases hl : searchLoopC p f t (wadd r 1) with
        | error e => rw [hl] at h; cases h
        | ok z =>
          rw [hl] at h
          obtain ⟨g, m⟩ := z
          simp only [pure, Except.pure] at h
          injection h with h; injection h with e1 e2; subst e1; subst e2
          have := ih (wadd r 1) g m (by omega) hl
          simp only [List.length_cons]
          omega

/-- The whole search. -/
theorem kmpC_cost (p t : List UInt8) (hp : p.length < npos) (hne : p ≠ []) (b : Bool) (n : Nat)
    (h : kmpC p t = .ok (b, n)) : n + 2 ≤ 2 * (p.length + t.length) := by
  unfold kmpC at h
  simp only [bind, Except.bind] at h
  cases hf : failureVecC p with
  | error e => rw [hf] at h; cases h
  | ok x =>
    rw [hf] at h
    obtain ⟨f, m⟩ := x
    simp only [] at h
    cases hs : searchLoopC p f t 0 with
    | error e => rw [hs] at h; cases h
    | ok y =>
      rw [hs] at h
      obtain ⟨c, k⟩ := y
      simp only [pure, Except.pure] at h
      injection h with h; injection h with e1 e2; subst e1; subst e2
      obtain ⟨h1, h2⟩ := failureVecC_cost p hp hne f m hf
      have := searchLoopC_cost p hp f h1 t 0 c k (List.length_pos_iff.mpr hne) hs
      omega

end Caitlyn.Kmp
