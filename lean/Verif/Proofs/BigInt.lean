import Verif.Spec.Decimal
import Verif.Proofs.Str

/-!
# Lemmas about `BigInteger`
-/

namespace Caitlyn
namespace BigInt
open Caitlyn.Spec

/-- Value of a digit list. -/
def val : List Int → Int
  | [] => 0
  | d :: ds => d + 10 * val ds

/-- All digits are decimal digits. -/
def Valid (ds : List Int) : Prop := ∀ d ∈ ds, 0 ≤ d ∧ d ≤ 9

theorem valid_nil : Valid [] := by simp [Valid]
theorem valid_cons {d ds} : Valid (d :: ds) ↔ (0 ≤ d ∧ d ≤ 9) ∧ Valid ds := by
  simp [Valid]

theorem val_nonneg : ∀ ds, Valid ds → 0 ≤ val ds
  | [], _ => by simp [val]
  | d :: ds, h => by
    rw [valid_cons] at h
    have := val_nonneg ds h.2
    simp only [val]; omega

theorem val_append : ∀ a b, val (a ++ b) = val a + 10 ^ a.length * val b
  | [], b => by simp [val]
  | d :: a, b => by
    simp only [List.cons_append, val, val_append a b, List.length_cons, Int.pow_succ]
    rw [Int.mul_add]
    have : (10 : Int) * (10 ^ a.length * val b) = 10 ^ a.length * 10 * val b := by
      rw [← Int.mul_assoc, Int.mul_comm 10]
    omega

theorem val_lt : ∀ ds, Valid ds → val ds < 10 ^ ds.length
  | [], _ => by simp [val]
  | d :: ds, h => by
    rw [valid_cons] at h
    have := val_lt ds h.2
    simp only [val, List.length_cons, Int.pow_succ]
    omega

/-! ### digs -/

theorem digitChar_toNat (d : Nat) (h : d < 10) : (Nat.digitChar d).toNat = d + 48 := by
  have : ∀ d < 10, (Nat.digitChar d).toNat = d + 48 := by decide
  exact this d h

theorem digs_zero : digs 0 = [] := rfl

theorem digs_pos (n : Nat) (h : 0 < n) : digs n = ((n % 10 : Nat) : Int) :: digs (n / 10) := by
  unfold digs
  rw [if_neg (by omega)]
  by_cases hn : n < 10
  · rw [Nat.toDigits_of_lt_base hn, if_pos (by omega)]
    simp [digitChar_toNat n hn]
    omega
  · rw [Nat.toDigits_of_base_le (by omega) (by omega), if_neg (by omega)]
    simp [digitChar_toNat (n % 10) (by omega)]

theorem digs_valid (n : Nat) : Valid (digs n) := by
  induction n using Nat.strongRecOn with
  | ind n ih =>
    by_cases h : n = 0
    · subst h; rw [digs_zero]; exact valid_nil
    · rw [digs_pos n (by omega), valid_cons]
      exact ⟨by omega, ih _ (by omega)⟩

theorem val_digs (n : Nat) : val (digs n) = n := by
  induction n using Nat.strongRecOn with
  | ind n ih =>
    by_cases h : n = 0
    · subst h; rfl
    · rw [digs_pos n (by omega), val, ih _ (by omega)]
      omega

/-- No leading zero: the last (most significant) digit is not zero. -/
def NoLead (ds : List Int) : Prop := ∀ d, ds.getLast? = some d → d ≠ 0

theorem noLead_nil : NoLead [] := by simp [NoLead]

theorem noLead_tail {d ds} (h : NoLead (d :: ds)) : NoLead ds := by
  intro e he
  apply h
  cases ds with
  | nil => simp at he
  | cons a b => simpa using he

theorem digs_noLead (n : Nat) : NoLead (digs n) := by
  induction n using Nat.strongRecOn with
  | ind n ih =>
    by_cases h : n = 0
    · subst h; rw [digs_zero]; exact noLead_nil
    · rw [digs_pos n (by omega)]
      intro d hd
      by_cases h10 : n / 10 = 0
      · rw [h10, digs_zero] at hd
        simp at hd
        omega
      · apply ih (n / 10) (by omega) d
        rw [digs_pos _ (by omega)] at hd ⊢
        simpa using hd

theorem noLead_val_pos {ds} (hv : Valid ds) (hn : NoLead ds) (hne : ds ≠ []) : 0 < val ds := by
  induction ds with
  | nil => exact absurd rfl hne
  | cons d ds ih =>
    rw [valid_cons] at hv
    by_cases h : ds = []
    · subst h
      have := hn d (by simp)
      simp [val]; omega
    · have := ih hv.2 (noLead_tail hn) h
      simp only [val]; omega

/-- Canonical digit lists are determined by their value. -/
theorem eq_digs : ∀ ds, Valid ds → NoLead ds → ds = digs (val ds).toNat := by
  intro ds
  induction ds with
  | nil => intro _ _; rfl
  | cons d ds ih =>
    intro hv hn
    have hp := noLead_val_pos hv hn (by simp)
    have hv' := valid_cons.mp hv
    have h0 := val_nonneg ds hv'.2
    rw [digs_pos _ (by omega)]
    have e1 : (((val (d :: ds)).toNat % 10 : Nat) : Int) = d := by simp only [val] at *; omega
    have e2 : (val (d :: ds)).toNat / 10 = (val ds).toNat := by simp only [val] at *; omega
    rw [e1, e2, ← ih hv'.2 (noLead_tail hn)]

/-! ### trim -/

theorem trim_concat_zero (ds : List Int) : trim (ds ++ [0]) = trim ds := by simp [trim]

theorem trim_concat_ne (ds : List Int) (d : Int) (h : d ≠ 0) : trim (ds ++ [d]) = ds ++ [d] := by
  simp [trim, h]

theorem trim_spec (ds : List Int) (h : Valid ds) :
    Valid (trim ds) ∧ NoLead (trim ds) ∧ val (trim ds) = val ds := by
  generalize hn : ds.length = n
  induction n generalizing ds with
  | zero =>
    have : ds = [] := List.length_eq_zero_iff.mp hn
    subst this
    exact ⟨valid_nil, noLead_nil, rfl⟩
  | succ n ih =>
    rcases List.eq_nil_or_concat ds with rfl | ⟨init, d, rfl⟩
    · simp at hn
    · rw [List.concat_eq_append] at *
      have hi : Valid init := fun e he => h e (by simp [he])
      by_cases hd : d = 0
      · subst hd
        obtain ⟨h1, h2, h3⟩ := ih init hi (by simpa using hn)
        rw [trim_concat_zero]
        refine ⟨h1, h2, ?_⟩
        rw [h3, val_append]; simp [val]
      · rw [trim_concat_ne _ _ hd]
        refine ⟨h, ?_, rfl⟩
        intro e he
        simp at he
        omega

theorem trim_eq_digs (ds : List Int) (h : Valid ds) : trim ds = digs (val ds).toNat := by
  obtain ⟨h1, h2, h3⟩ := trim_spec ds h
  rw [← h3]
  exact eq_digs _ h1 h2

/-- The `BigInteger` with magnitude `m` and the given sign flag. -/
def mk' (m : Nat) (s : Bool) : BigInt := ⟨digs m, s⟩

theorem digs_isEmpty (n : Nat) : (digs n).isEmpty = decide (n = 0) := by
  by_cases h : n = 0
  · subst h; rfl
  · rw [digs_pos n (by omega)]; simp [h]

theorem digs_eq_nil (n : Nat) : digs n = [] ↔ n = 0 := by
  have := digs_isEmpty n
  rw [← List.isEmpty_iff, this]; simp

theorem digs_injective {m n : Nat} (h : digs m = digs n) : m = n := by
  have := congrArg val h
  rw [val_digs, val_digs] at this
  omega

theorem rlz_eq (ds : List Int) (s : Bool) (h : Valid ds) (m : Nat) (hm : val ds = m) :
    removeLeadingZeros ⟨ds, s⟩ = mk' m (if m = 0 then false else s) := by
  unfold removeLeadingZeros
  simp only [trim_eq_digs ds h, hm, Int.toNat_natCast, digs_isEmpty, mk', decide_eq_true_eq]

/-! ### chkInt -/

theorem chkInt_ok {x : Int} (h1 : -2147483648 ≤ x) (h2 : x ≤ 2147483647) : chkInt x = .ok x := by
  unfold chkInt; rw [if_pos ⟨h1, h2⟩]

/-! ### Add -/

theorem valid_tail {ds} (h : Valid ds) : Valid ds.tail := fun d hd => h d (List.mem_of_mem_tail hd)

theorem val_eq_head_tail (ds : List Int) : val ds = ds.headD 0 + 10 * val ds.tail := by
  cases ds <;> simp [val]

theorem headD_range {ds} (h : Valid ds) : 0 ≤ ds.headD 0 ∧ ds.headD 0 ≤ 9 := by
  cases ds with
  | nil => simp
  | cons d ds => simpa using (valid_cons.mp h).1

theorem plusHead_ok (s : Int) (ds : List Int) (h : Valid ds) (h1 : -1000 ≤ s) (h2 : s ≤ 1000) :
    plusHead s ds = .ok (s + ds.headD 0) := by
  cases ds with
  | nil => simp [plusHead]
  | cons d ds =>
    have := (valid_cons.mp h).1
    exact chkInt_ok (by omega) (by omega)

theorem minusHead_ok (s : Int) (ds : List Int) (h : Valid ds) (h1 : -1000 ≤ s) (h2 : s ≤ 1000) :
    minusHead s ds = .ok (s - ds.headD 0) := by
  cases ds with
  | nil => simp [minusHead]
  | cons d ds =>
    have := (valid_cons.mp h).1
    exact chkInt_ok (by omega) (by omega)

theorem addLoop_spec : ∀ (n : Nat) (xs ys : List Int) (c : Int), Valid xs → Valid ys →
    0 ≤ c → c ≤ 1 → ∃ r, addLoop n xs ys c = .ok r ∧ Valid r ∧ r.length = n ∧
      (xs.length < n → ys.length < n → val r = val xs + val ys + c) := by
  intro n
  induction n with
  | zero => intro xs ys c _ _ _ _; exact ⟨[], rfl, valid_nil, rfl, by omega⟩
  | succ n ih =>
    intro xs ys c hx hy h0 h1
    have hxr := headD_range hx
    have hyr := headD_range hy
    have e1 := plusHead_ok c xs hx (by omega) (by omega)
    have e2 := plusHead_ok (c + xs.headD 0) ys hy (by omega) (by omega)
    simp only [addLoop, e1, bind, Except.bind, e2]
    have hdiv : (c + xs.headD 0 + ys.headD 0).tdiv 10 = (c + xs.headD 0 + ys.headD 0) / 10 :=
      Int.tdiv_eq_ediv_of_nonneg (by omega)
    have hmod : (c + xs.headD 0 + ys.headD 0).tmod 10 = (c + xs.headD 0 + ys.headD 0) % 10 :=
      Int.tmod_eq_emod_of_nonneg (by omega)
    rw [hdiv, hmod]
    obtain ⟨r, h2, h3, h4, h5⟩ := ih xs.tail ys.tail ((c + xs.headD 0 + ys.headD 0) / 10)
      (valid_tail hx) (valid_tail hy) (by omega) (by omega)
    rw [h2]
    refine ⟨_, rfl, ?_, by simp [h4], ?_⟩
    · rw [valid_cons]; exact ⟨by omega, h3⟩
    · intro hlx hly
      rw [val, val_eq_head_tail xs, val_eq_head_tail ys]
      by_cases hn : n = 0
      · subst hn
        have ex : xs = [] := List.length_eq_zero_iff.mp (by omega)
        have ey : ys = [] := List.length_eq_zero_iff.mp (by omega)
        subst ex; subst ey
        have er : r = [] := List.length_eq_zero_iff.mp h4
        subst er
        simp [val]; omega
      · have := h5 (by simp; omega) (by simp; omega)
        rw [this]; omega

theorem mk'_digits (m s) : (mk' m s).digits = digs m := rfl
theorem mk'_neg (m s) : (mk' m s).neg = s := rfl

theorem add_same (m n : Nat) (s : Bool) :
    add (mk' m s) (mk' n s) = .ok (mk' (m + n) (if m + n = 0 then false else s)) := by
  unfold add
  rw [if_pos (by rfl)]
  obtain ⟨r, h1, h2, h3, h4⟩ := addLoop_spec
    (max (mk' m s).digits.length (mk' n s).digits.length + 1) (digs m) (digs n) 0
    (digs_valid m) (digs_valid n) (by omega) (by omega)
  simp only [mk'_digits] at h1 h4 ⊢
  rw [h1]
  simp only [bind, Except.bind, pure, Except.pure, mk'_neg]
  rw [rlz_eq r s h2 (m + n)]
  rw [h4 (by omega) (by omega), val_digs, val_digs]; omega

/-! ### comparisons -/

theorem equal_mk (m n : Nat) (s t : Bool) :
    equal (mk' m s) (mk' n t) = (decide (m = n) && s == t) := by
  unfold equal mk'
  simp only
  congr 1
  by_cases h : m = n
  · subst h; simp
  · have : digs m ≠ digs n := fun e => h (digs_injective e)
    simp [h, this]

theorem digs_length_lt {m n : Nat} (h : (digs m).length < (digs n).length) : m < n := by
  have h1 := val_lt (digs m) (digs_valid m)
  rw [val_digs] at h1
  -- lower bound for n from its number of digits
  have lower : ∀ n, digs n ≠ [] → (10 : Nat) ^ ((digs n).length - 1) ≤ n := by
    intro n
    induction n using Nat.strongRecOn with
    | ind n ih =>
      intro hne
      have hn : 0 < n := by
        rcases Nat.eq_zero_or_pos n with h | h
        · subst h; exact absurd rfl hne
        · exact h
      rw [digs_pos n hn]
      by_cases h10 : n / 10 = 0
      · rw [h10, digs_zero]; simp; omega
      · have := ih (n / 10) (by omega) (by rw [digs_pos _ (by omega)]; simp)
        have hl : (digs (n / 10)).length ≠ 0 := by rw [digs_pos _ (by omega)]; simp
        obtain ⟨k, hk⟩ := Nat.exists_eq_succ_of_ne_zero hl
        rw [hk] at this
        rw [List.length_cons, hk]
        simp only [Nat.succ_eq_add_one, Nat.add_sub_cancel, Nat.pow_succ] at *
        omega
  have h2 := lower n (by intro e; rw [e] at h; simp at h)
  have h3 : (10 : Nat) ^ (digs m).length ≤ 10 ^ ((digs n).length - 1) :=
    Nat.pow_le_pow_right (by omega) (by omega)
  have h4 : (m : Int) < ((10 ^ (digs m).length : Nat) : Int) := by
    simpa using h1
  omega

theorem ltRev_append : ∀ (a b : List Int) (x y : Int), a.length = b.length →
    ltRev (a ++ [x]) (b ++ [y]) = (ltRev a b || (a == b && decide (x < y))) := by
  intro a
  induction a with
  | nil =>
    intro b x y h
    have : b = [] := List.length_eq_zero_iff.mp h.symm
    subst this
    by_cases e : x = y
    · subst e; simp [ltRev]
    · simp [ltRev, e]
  | cons c a ih =>
    intro b x y h
    cases b with
    | nil => simp at h
    | cons d b =>
      simp only [List.cons_append, ltRev]
      by_cases e : c = d
      · subst e
        simp only [ne_eq, not_true_eq_false, if_false]
        rw [ih b x y (by simpa using h)]
        simp
      · simp [e]

theorem ltRev_spec : ∀ (xs ys : List Int), Valid xs → Valid ys → xs.length = ys.length →
    ltRev xs.reverse ys.reverse = decide (val xs < val ys) := by
  intro xs
  induction xs with
  | nil => intro ys _ _ h
           have : ys = [] := List.length_eq_zero_iff.mp h.symm
           subst this; simp [ltRev, val]
  | cons x xs ih =>
    intro ys hx hy h
    cases ys with
    | nil => simp at h
    | cons y ys =>
      have hx' := valid_cons.mp hx
      have hy' := valid_cons.mp hy
      have hl : xs.length = ys.length := by simpa using h
      rw [List.reverse_cons, List.reverse_cons, ltRev_append _ _ _ _ (by simp [hl]),
        ih ys hx'.2 hy'.2 hl]
      by_cases e : xs = ys
      · subst e; simp [val]
      · have hne : val xs ≠ val ys := by
          intro he
          apply e
          exact val_inj_of_length xs ys hx'.2 hy'.2 hl he
        have : (xs.reverse == ys.reverse) = false := by simp [e]
        rw [this]
        simp only [Bool.false_and, Bool.or_false]
        apply decide_eq_decide.mpr
        simp only [val]
        omega
where
  val_inj_of_length : ∀ (xs ys : List Int), Valid xs → Valid ys → xs.length = ys.length →
      val xs = val ys → xs = ys := by
    intro xs
    induction xs with
    | nil => intro ys _ _ h _; exact (List.length_eq_zero_iff.mp h.symm).symm
    | cons x xs ih =>
      intro ys hx hy h hv
      cases ys with
      | nil => simp at h
      | cons y ys =>
        have hx' := valid_cons.mp hx
        have hy' := valid_cons.mp hy
        simp only [val] at hv
        have : val xs = val ys := by omega
        rw [ih ys hx'.2 hy'.2 (by simpa using h) this]
        congr 1; omega

theorem lessThan_mk (m n : Nat) (s t : Bool) :
    lessThan (mk' m s) (mk' n t) = if s ≠ t then s else decide (m < n) := by
  unfold lessThan
  simp only [mk'_neg, mk'_digits]
  by_cases hs : s = t
  · subst hs
    simp only [ne_eq, not_true_eq_false, if_false]
    by_cases hl : (digs m).length = (digs n).length
    · simp only [hl, ne_eq, not_true_eq_false, if_false]
      rw [ltRev_spec _ _ (digs_valid m) (digs_valid n) hl, val_digs, val_digs]
      simp
    · simp only [hl, ne_eq, not_false_eq_true, if_true]
      by_cases h : (digs m).length < (digs n).length
      · simp [h, digs_length_lt h]
      · have := digs_length_lt (m := n) (n := m) (by omega)
        simp only [h, decide_false]
        simp; omega
  · simp [hs]

theorem greaterThan_mk (m n : Nat) (s : Bool) :
    greaterThan (mk' m s) (mk' n s) = decide (n < m) := by
  unfold greaterThan
  rw [lessThan_mk, equal_mk]
  simp
  by_cases h1 : m < n
  · simp [h1]; omega
  · by_cases h2 : m = n
    · simp [h2]
    · simp [h1, h2]; omega

/-! ### Subtract -/

theorem subLoop_spec : ∀ (xs ys : List Int) (b : Int), Valid xs → Valid ys → 0 ≤ b → b ≤ 1 →
    ∃ r c, subLoop xs ys b = .ok r ∧ Valid r ∧ r.length = xs.length ∧ 0 ≤ c ∧ c ≤ 1 ∧
      (ys.length ≤ xs.length → val r = val xs - val ys - b + c * 10 ^ xs.length) := by
  intro xs
  induction xs with
  | nil =>
    intro ys b _ _ h0 h1
    refine ⟨[], b, rfl, valid_nil, rfl, h0, h1, ?_⟩
    intro hl
    have : ys = [] := List.length_eq_zero_iff.mp (by simpa using hl)
    subst this; simp [val]; omega
  | cons x xs ih =>
    intro ys b hx hy h0 h1
    have hx' := valid_cons.mp hx
    have hyr := headD_range hy
    have e1 : chkInt (x - b) = .ok (x - b) := chkInt_ok (by omega) (by omega)
    have e2 := minusHead_ok (x - b) ys hy (by omega) (by omega)
    simp only [subLoop, e1, bind, Except.bind, e2]
    have hlen : ys.length ≤ (x :: xs).length → ys.tail.length ≤ xs.length := by
      simp
    by_cases hd : x - b - ys.headD 0 < 0
    · rw [if_pos hd]
      obtain ⟨r, c, h2, h3, h4, h5, h6, h7⟩ := ih ys.tail 1 hx'.2 (valid_tail hy) (by omega) (by omega)
      rw [h2]
      refine ⟨_, c, rfl, ?_, by simp [h4], h5, h6, ?_⟩
      · rw [valid_cons]; exact ⟨by omega, h3⟩
      · intro hl
        rw [val, h7 (hlen hl), val, val_eq_head_tail ys, List.length_cons, Int.pow_succ]
        have : c * (10 ^ xs.length * 10) = 10 * (c * 10 ^ xs.length) := by
          rw [← Int.mul_assoc, Int.mul_comm]
        rw [this]; omega
    · rw [if_neg hd]
      obtain ⟨r, c, h2, h3, h4, h5, h6, h7⟩ := ih ys.tail 0 hx'.2 (valid_tail hy) (by omega) (by omega)
      rw [h2]
      refine ⟨_, c, rfl, ?_, by simp [h4], h5, h6, ?_⟩
      · rw [valid_cons]; exact ⟨by omega, h3⟩
      · intro hl
        rw [val, h7 (hlen hl), val, val_eq_head_tail ys, List.length_cons, Int.pow_succ]
        have : c * (10 ^ xs.length * 10) = 10 * (c * 10 ^ xs.length) := by
          rw [← Int.mul_assoc, Int.mul_comm]
        rw [this]; omega

theorem parse_zero : parse c!"0" = .ok (mk' 0 false) := by decide

theorem subLoop_digs (m n : Nat) (h : n ≤ m) :
    ∃ r, subLoop (digs m) (digs n) 0 = .ok r ∧ Valid r ∧ val r = ((m - n : Nat) : Int) := by
  obtain ⟨r, c, h1, h2, h3, h4, h5, h6⟩ := subLoop_spec (digs m) (digs n) 0 (digs_valid m)
    (digs_valid n) (by omega) (by omega)
  refine ⟨r, h1, h2, ?_⟩
  have hl : (digs n).length ≤ (digs m).length := by
    rcases Nat.lt_or_ge (digs m).length (digs n).length with h | h
    · have := digs_length_lt h; omega
    · exact h
  have h7 := h6 hl
  rw [val_digs, val_digs] at h7
  have h8 := val_lt r h2
  rw [h3] at h8
  have hc : c = 0 ∨ c = 1 := by omega
  rcases hc with rfl | rfl
  · simp at h7; omega
  · simp at h7; omega

theorem subSame_mk (m n : Nat) (s : Bool) :
    subSame (mk' m s) (mk' n s) =
      .ok (if m = n then mk' 0 false else if m < n then mk' (n - m) true else mk' (m - n) false) := by
  unfold subSame
  rw [equal_mk]
  by_cases h : m = n
  · simp [h, parse_zero]
  · simp only [h, decide_false, Bool.false_and, Bool.false_eq_true, if_false]
    rw [lessThan_mk]
    simp only [ne_eq, not_true_eq_false, if_false, decide_eq_true_eq]
    by_cases hl : m < n
    · simp only [hl, if_true, mk'_digits, decide_true]
      obtain ⟨r, h1, h2, h3⟩ := subLoop_digs n m (by omega)
      rw [h1]
      simp only [bind, Except.bind, pure, Except.pure]
      rw [rlz_eq r true h2 _ h3, if_neg (by omega)]
    · simp only [hl, if_false, mk'_digits, decide_false]
      obtain ⟨r, h1, h2, h3⟩ := subLoop_digs m n (by omega)
      rw [h1]
      simp only [bind, Except.bind, pure, Except.pure]
      rw [rlz_eq r false h2 _ h3]
      simp

theorem add_diff (m n : Nat) (s : Bool) :
    add (mk' m s) (mk' n (!s)) = .ok (if n < m then mk' (m - n) false else mk' (n - m) (!s)) := by
  unfold add
  rw [if_neg (by simp [mk'_neg])]
  show (if greaterThan (mk' m false) (mk' n false) = true then subSame (mk' m false) (mk' n false)
    else do
      let r ← subSame (mk' n false) (mk' m false)
      pure ⟨r.digits, !s⟩) = _
  rw [greaterThan_mk, subSame_mk, subSame_mk]
  by_cases h : n < m
  · simp only [h, decide_true, if_true]
    rw [if_neg (by omega), if_neg (by omega)]
  · simp only [h, decide_false, if_false, Bool.false_eq_true]
    by_cases h2 : n = m
    · subst h2; simp [bind, Except.bind, pure, Except.pure, mk']
    · rw [if_neg h2]
      simp [bind, Except.bind, pure, Except.pure, mk']

theorem subtract_same (m n : Nat) (s : Bool) :
    subtract (mk' m s) (mk' n s) =
      .ok (if m = n then mk' 0 false else if m < n then mk' (n - m) true else mk' (m - n) false) := by
  unfold subtract
  rw [if_neg (by simp [mk'_neg])]
  exact subSame_mk m n s

theorem subtract_diff (m n : Nat) (s : Bool) :
    subtract (mk' m s) (mk' n (!s)) = .ok (mk' (if n < m then m - n else n - m) s) := by
  unfold subtract
  rw [if_pos (by simp [mk'_neg]), add_diff]
  simp only [bind, Except.bind, pure, Except.pure, mk'_neg]
  by_cases h : n < m <;> simp [h, mk']

end BigInt
end Caitlyn
