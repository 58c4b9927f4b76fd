import Verif.Model.DivCost
import Verif.Proofs.Rounds

/-! # The work of `Multiply` and `Divide` -/

namespace Caitlyn.BigInt
open Caitlyn.Spec

/-! ## The copies compute what the model computes -/

theorem mulInnerC_same (x : Int) : ∀ (rs ys : List Int) (c : Int), (mulInnerC x ys rs c).map Prod.fst = mulInner x ys rs c
  | [], ys, c => by
    rw [mulInnerC, mulInner]
    split <;> rfl
  | r :: rs, ys, c => by
    rw [mulInnerC, mulInner]
    split
    · rfl
    · cases chkInt (x * ys.headD 0) with
      | error e => rfl
      | ok p =>
        cases h1 : chkInt (r + p) with
        | error e => simp only [bind, Except.bind, h1]; rfl
        | ok s =>
          cases h2 : chkInt (s + c) with
          | error e => simp only [bind, Except.bind, h1, h2]; rfl
          | ok t =>
            simp only [bind, Except.bind, h1, h2]
            rw [← mulInnerC_same x rs ys.tail]
            cases mulInnerC x ys.tail rs (t.tdiv 10) <;> rfl

theorem mulOuterC_same (ys : List Int) : ∀ xs rs : List Int, (mulOuterC xs ys rs).map Prod.fst = mulOuter xs ys rs
  | [], rs => rfl
  | x :: xs, rs => by
    rw [mulOuterC, mulOuter, ← mulInnerC_same]
    cases mulInnerC x ys rs 0 with
    | error e => rfl
    | ok a =>
      simp only [bind, Except.bind, Except.map]
      rw [← mulOuterC_same ys xs]
      cases mulOuterC xs ys a.1.tail <;> rfl

theorem multiplyC_same (a b : BigInt) : (multiplyC a b).map Prod.fst = multiply a b := by
  rw [multiplyC, multiply, ← mulOuterC_same]
  cases mulOuterC a.digits b.digits (List.replicate (a.digits.length + b.digits.length) 0) <;> rfl

theorem divSearchC_same (v c : BigInt) : ∀ (n : Nat) (x l r : Int), (divSearchC v c n x l r).map Prod.fst = divSearch v c n x l r
  | 0, _, _, _ => rfl
  | n + 1, x, l, r => by
    rw [divSearchC, divSearch]
    split
    · simp only [bind, Except.bind]
      cases ofInt ((l + r).tdiv 2) with
      | error e => rfl
      | ok m =>
        simp only []
        rw [← multiplyC_same]
        cases multiplyC v m with
        | error e => rfl
        | ok t =>
          simp only [Except.map]
          by_cases hc : (t.1.lessThan c || t.1.equal c) = true
          · rw [if_pos hc, if_pos hc, ← divSearchC_same v c n]
            cases divSearchC v c n ((l + r).tdiv 2) ((l + r).tdiv 2 + 1) r <;> rfl
          · rw [if_neg hc, if_neg hc, ← divSearchC_same v c n]
            cases divSearchC v c n x l ((l + r).tdiv 2 - 1) <;> rfl
    · rfl

theorem divLoopC_same (v : BigInt) : ∀ (ds : List Int) (q c : BigInt), (divLoopC v ds q c).map Prod.fst = divLoop v ds q c
  | [], _, _ => rfl
  | d :: ds, q, c => by
    rw [divLoopC, divLoop, ← divSearchC_same]
    simp only [bind, Except.bind]
    cases divSearchC v (removeLeadingZeros ⟨d :: c.digits, c.neg⟩) 12 0 0 10 with
    | error e => rfl
    | ok a =>
      simp only [Except.map]
      cases ofInt a.1 with
      | error e => rfl
      | ok x =>
        simp only []
        rw [← multiplyC_same]
        cases multiplyC v x with
        | error e => rfl
        | ok p =>
          simp only [Except.map]
          cases subtract (removeLeadingZeros ⟨d :: c.digits, c.neg⟩) p.1 with
          | error e => rfl
          | ok nx =>
            simp only []
            rw [← divLoopC_same v ds]
            cases divLoopC v ds ⟨a.1 :: q.digits, q.neg⟩ nx <;> rfl

/-! ## Multiply -/

theorem mulInnerC_passes (x : Int) (hx : 0 ≤ x ∧ x ≤ 9) : ∀ (rs ys : List Int) (c : Int) (r : List Int) (k : Nat),
    Valid rs → Valid ys → 0 ≤ c → c ≤ 9 → (∀ d ∈ rs.drop ys.length, d = 0) → mulInnerC x ys rs c = .ok (r, k) →
    ys.length ≤ k ∧ k ≤ ys.length + 1 ∧ Valid r ∧ ∀ d ∈ r.drop (ys.length + 1), d = 0 := by
  intro rs
  induction rs with
  | nil =>
    intro ys c r k _ _ _ _ _ h
    rw [mulInnerC] at h
    split at h
    · next hs =>
      cases h
      have := List.isEmpty_iff.mp hs.1
      subst this
      simp [Valid]
    · cases h
  | cons r0 rs ih =>
    intro ys c r k hr hy h0 h9 hz h
    have hr' := valid_cons.mp hr
    rw [mulInnerC] at h
    split at h
    · next hs =>
      cases h
      have := List.isEmpty_iff.mp hs.1
      subst this
      exact ⟨by simp, by simp, hr, fun d hd => hz d (by simp at hd ⊢; exact .inr hd)⟩
    · next hs =>
      have hyr := headD_range hy
      have hp := mul_digit_range hx hyr
      have e1 : chkInt (x * ys.headD 0) = .ok (x * ys.headD 0) := chkInt_ok (by omega) (by omega)
      have e2 : chkInt (r0 + x * ys.headD 0) = .ok (r0 + x * ys.headD 0) := chkInt_ok (by omega) (by omega)
      have e3 : chkInt (r0 + x * ys.headD 0 + c) = .ok (r0 + x * ys.headD 0 + c) := chkInt_ok (by omega) (by omega)
      simp only [e1, bind, Except.bind, e2, e3] at h
      generalize hs' : r0 + x * ys.headD 0 + c = s at *
      have hdiv : s.tdiv 10 = s / 10 := Int.tdiv_eq_ediv_of_nonneg (by omega)
      have hmod : s.tmod 10 = s % 10 := Int.tmod_eq_emod_of_nonneg (by omega)
      rw [hdiv, hmod] at h
      cases hi : mulInnerC x ys.tail rs (s / 10) with
      | error e => rw [hi] at h; cases h
      | ok a =>
        obtain ⟨t, k'⟩ := a
        rw [hi] at h
        cases h
        cases ys with
        | nil =>
          have z0 : r0 = 0 := hz r0 (by simp)
          have hs0 : s = c := by rw [← hs', z0]; simp
          have hs1 : s / 10 = 0 := by omega
          rw [hs1, List.tail_nil] at hi
          have : mulInnerC x [] rs 0 = .ok (rs, 0) := by cases rs <;> simp [mulInnerC]
          rw [this] at hi
          cases hi
          refine ⟨by simp, by simp, valid_cons.mpr ⟨by omega, hr'.2⟩, fun d hd => hz d (by simp at hd ⊢; exact .inr hd)⟩
        | cons y ys =>
          obtain ⟨g1, g2, g3, g4⟩ := ih ys (s / 10) t k' hr'.2 (valid_cons.mp hy).2 (by omega) (by omega) (by simpa using hz) hi
          exact ⟨by simpa using g1, by simpa using g2, valid_cons.mpr ⟨by omega, g3⟩, by simpa using g4⟩

theorem mulOuterC_passes (ys : List Int) (hy : Valid ys) : ∀ (xs rs r : List Int) (k : Nat), Valid xs → Valid rs →
    (∀ d ∈ rs.drop ys.length, d = 0) → mulOuterC xs ys rs = .ok (r, k) →
    xs.length * ys.length ≤ k ∧ k ≤ xs.length * (ys.length + 1) := by
  intro xs
  induction xs with
  | nil => intro rs r k _ _ _ h; cases h; simp
  | cons x xs ih =>
    intro rs r k hx hr hz h
    have hx' := valid_cons.mp hx
    rw [mulOuterC] at h
    cases h1 : mulInnerC x ys rs 0 with
    | error e => rw [h1] at h; cases h
    | ok a =>
      obtain ⟨r1, k1⟩ := a
      rw [h1] at h
      simp only [bind, Except.bind] at h
      obtain ⟨g1, g2, g3, g4⟩ := mulInnerC_passes x hx'.1 rs ys 0 r1 k1 hr hy (by omega) (by omega) hz h1
      cases h2 : mulOuterC xs ys r1.tail with
      | error e => rw [h2] at h; cases h
      | ok b =>
        obtain ⟨r2, k2⟩ := b
        rw [h2] at h
        cases h
        obtain ⟨f1, f2⟩ := ih r1.tail r2 k2 hx'.2 (valid_tail g3) (by
          intro d hd
          rw [List.drop_tail] at hd
          exact g4 d hd) h2
        rw [List.length_cons, Nat.succ_mul, Nat.succ_mul]
        omega

theorem multiplyC_mk (m n : Nat) (s t : Bool) : ∃ k, multiplyC (mk' m s) (mk' n t) =
    .ok (mk' (m * n) (if m * n = 0 then false else s != t), k) ∧ (digs m).length * (digs n).length ≤ k ∧
    k ≤ (digs m).length * ((digs n).length + 1) := by
  have h := multiplyC_same (mk' m s) (mk' n t)
  rw [multiply_mk] at h
  cases hm : multiplyC (mk' m s) (mk' n t) with
  | error e => rw [hm] at h; cases h
  | ok a =>
    obtain ⟨r, k⟩ := a
    rw [hm] at h
    simp only [Except.map, Except.ok.injEq] at h
    subst h
    refine ⟨k, rfl, ?_⟩
    rw [multiplyC] at hm
    simp only [mk'_digits, mk'_neg] at hm
    cases ho : mulOuterC (digs m) (digs n) (List.replicate ((digs m).length + (digs n).length) 0) with
    | error e => rw [ho] at hm; cases hm
    | ok b =>
      obtain ⟨r, k'⟩ := b
      rw [ho] at hm
      simp only [bind, Except.bind, pure, Except.pure, Except.ok.injEq, Prod.mk.injEq] at hm
      obtain ⟨-, rfl⟩ := hm
      exact mulOuterC_passes (digs n) (digs_valid n) (digs m) _ r k' (digs_valid m)
        (by intro d hd; rw [List.mem_replicate] at hd; omega)
        (by intro d hd; exact (List.mem_replicate.mp (List.mem_of_mem_drop hd)).2) ho

/-! ## Divide -/

theorem digs_small : ∀ n ≤ 10, (digs n).length ≤ 2 ∧ (n ≤ 9 → (digs n).length ≤ 1) := by decide +kernel

theorem digs_mono {a b : Nat} (h : a ≤ b) : (digs a).length ≤ (digs b).length := by
  rcases Nat.lt_or_ge (digs b).length (digs a).length with c | c
  · have := digs_length_lt c; omega
  · exact c

theorem digs_ten (c d : Nat) (h : d ≤ 9) : (digs (d + 10 * c)).length ≤ (digs c).length + 1 := by
  rcases Nat.eq_zero_or_pos (d + 10 * c) with h0 | h0
  · rw [h0]; simp [digs_zero]
  · rw [digs_pos _ h0, List.length_cons, show (d + 10 * c) / 10 = c by omega]
    omega

theorem divSearchC_passes (n c : Nat) : ∀ (k fuel : Nat) (x left right q : Int) (w : Nat), 0 ≤ left → right ≤ 10 →
    left ≤ right + 1 → right + 1 - left < 2 ^ k → divSearchC (mk' n false) (mk' c false) fuel x left right = .ok (q, w) →
    w ≤ k * (3 * (digs n).length) := by
  intro k
  induction k with
  | zero =>
    intro fuel x left right q w h0 h10 hlr hw h
    cases fuel with
    | zero => cases h
    | succ fuel =>
      rw [divSearchC, if_neg (by omega)] at h
      cases h
      omega
  | succ k ih =>
    intro fuel x left right q w h0 h10 hlr hw h
    cases fuel with
    | zero => cases h
    | succ fuel =>
      rw [divSearchC] at h
      by_cases hle : left ≤ right
      · rw [if_pos hle] at h
        have hmid : (left + right).tdiv 2 = (left + right) / 2 := Int.tdiv_eq_ediv_of_nonneg (by omega)
        rw [hmid] at h
        generalize hm : (left + right) / 2 = mid at h
        obtain ⟨md, rfl⟩ := Int.eq_ofNat_of_zero_le (show 0 ≤ mid by omega)
        simp only [bind, Except.bind] at h
        rw [ofInt_nonneg _ (by omega)] at h
        simp only [Int.toNat_natCast] at h
        obtain ⟨k1, e1, -, u1⟩ := multiplyC_mk n md false false
        rw [e1] at h
        simp only [bne_self_eq_false, ite_self] at h
        have hd := (digs_small md (by omega)).1
        have u2 : k1 ≤ 3 * (digs n).length := by
          have := Nat.mul_le_mul_left (digs n).length (show (digs md).length + 1 ≤ 3 by omega)
          rw [Nat.mul_comm 3]
          omega
        rw [Nat.succ_mul]
        have hp : (2 : Int) ^ (k + 1) = 2 * 2 ^ k := by rw [Int.pow_succ]; omega
        rw [hp] at hw
        split at h
        · cases h2 : divSearchC (mk' n false) (mk' c false) fuel (md : Int) ((md : Int) + 1) right with
          | error e => rw [h2] at h; cases h
          | ok b =>
            obtain ⟨q', w'⟩ := b
            rw [h2] at h
            cases h
            have := ih fuel _ _ _ _ _ (by omega) h10 (by omega) (by omega) h2
            omega
        · cases h2 : divSearchC (mk' n false) (mk' c false) fuel x left ((md : Int) - 1) with
          | error e => rw [h2] at h; cases h
          | ok b =>
            obtain ⟨q', w'⟩ := b
            rw [h2] at h
            cases h
            have := ih fuel _ _ _ _ _ h0 (by omega) (by omega) (by omega) h2
            omega
      · rw [if_neg hle] at h
        cases h
        omega

theorem divSearchC_least (n c : Nat) : ∀ (k fuel : Nat) (x left right q : Int) (w : Nat), 0 ≤ left → right ≤ 10 →
    2 ^ (k + 1) ≤ right + 2 - left → divSearchC (mk' n false) (mk' c false) fuel x left right = .ok (q, w) →
    k * (digs n).length ≤ w := by
  intro k
  induction k with
  | zero => intros; omega
  | succ k ih =>
    intro fuel x left right q w h0 h10 hw h
    cases fuel with
    | zero => cases h
    | succ fuel =>
      rw [divSearchC] at h
      by_cases hle : left ≤ right
      · rw [if_pos hle] at h
        have hmid : (left + right).tdiv 2 = (left + right) / 2 := Int.tdiv_eq_ediv_of_nonneg (by omega)
        rw [hmid] at h
        generalize hm : (left + right) / 2 = mid at h
        obtain ⟨md, rfl⟩ := Int.eq_ofNat_of_zero_le (show 0 ≤ mid by omega)
        simp only [bind, Except.bind] at h
        rw [ofInt_nonneg _ (by omega)] at h
        simp only [Int.toNat_natCast] at h
        have hp : (2 : Int) ^ (k + 1 + 1) = 2 * 2 ^ (k + 1) := by rw [Int.pow_succ]; omega
        have hp2 : (2 : Int) ^ (k + 1) = 2 * 2 ^ k := by rw [Int.pow_succ]; omega
        have hp3 : (1 : Int) ≤ 2 ^ k := Int.pow_pos (by decide)
        rw [hp] at hw
        obtain ⟨k1, e1, u1, -⟩ := multiplyC_mk n md false false
        rw [e1] at h
        simp only [bne_self_eq_false, ite_self] at h
        have u2 : (digs n).length ≤ k1 := by
          have hd : 1 ≤ (digs md).length := by
            rw [digs_pos md (by omega), List.length_cons]; omega
          have := Nat.mul_le_mul_left (digs n).length hd
          omega
        rw [Nat.succ_mul]
        split at h
        · cases h2 : divSearchC (mk' n false) (mk' c false) fuel (md : Int) ((md : Int) + 1) right with
          | error e => rw [h2] at h; cases h
          | ok b =>
            obtain ⟨q', w'⟩ := b
            rw [h2] at h
            cases h
            have := ih fuel _ _ _ _ _ (by omega) h10 (by omega) h2
            omega
        · cases h2 : divSearchC (mk' n false) (mk' c false) fuel x left ((md : Int) - 1) with
          | error e => rw [h2] at h; cases h
          | ok b =>
            obtain ⟨q', w'⟩ := b
            rw [h2] at h
            cases h
            have := ih fuel _ _ _ _ _ h0 (by omega) (by omega) h2
            omega
      · have hp : (2 : Int) ^ (k + 1 + 1) = 2 * 2 ^ (k + 1) := by rw [Int.pow_succ]; omega
        have hp3 : (1 : Int) ≤ 2 ^ (k + 1) := Int.pow_pos (by decide)
        omega

/-- `0 + 1 + ... + (n - 1)`, starting from `q`. -/
def stairs : Nat → Nat → Nat
  | _, 0 => 0
  | q, n + 1 => q + stairs (q + 1) n

theorem stairs_eq : ∀ n q, 2 * stairs q n + n = 2 * (q * n) + n * n
  | 0, q => by simp [stairs]
  | n + 1, q => by
    have := stairs_eq n (q + 1)
    rw [show (q + 1) * n = q * n + n from Nat.succ_mul q n] at this
    rw [stairs, show q * (n + 1) = q * n + q from Nat.mul_succ q n, show (n + 1) * (n + 1) = (n + 1) * n + (n + 1) from Nat.mul_succ _ _,
      show (n + 1) * n = n * n + n from Nat.succ_mul n n]
    omega

theorem divLoopC_work (n : Nat) (neg : Bool) : ∀ (ds q : List Int) (c : Nat), Valid ds → c < n →
    ∃ r w, divLoopC (mk' n false) ds ⟨q, neg⟩ (mk' c false) = .ok (r, w) ∧
      w.passes ≤ ds.length * (15 * (digs n).length + 1) ∧ stairs q.length ds.length ≤ w.moved ∧
      w.moved ≤ stairs q.length ds.length + ds.length * (digs n).length ∧ ds.length * (2 * (digs n).length) ≤ w.passes := by
  intro ds
  induction ds with
  | nil => intro q c _ _; exact ⟨_, _, rfl, by simp, by simp [stairs], by simp [stairs], by simp⟩
  | cons d ds ih =>
    intro q c hd hc
    have hd' := valid_cons.mp hd
    obtain ⟨dn, rfl⟩ := Int.eq_ofNat_of_zero_le hd'.1.1
    have hcur : removeLeadingZeros ⟨(dn : Int) :: digs c, false⟩ = mk' (dn + 10 * c) false := by
      rw [rlz_eq _ _ (by rw [valid_cons]; exact ⟨hd'.1, digs_valid c⟩) (dn + 10 * c)
        (by rw [val, val_digs]; omega)]
      simp
    obtain ⟨x, h1, h2, h3, h4⟩ := divSearch_spec n (dn + 10 * c) 12 0 0 10 (.inl ⟨rfl, rfl⟩)
      (by omega) (by omega) (by omega) (by omega) (by have := hd'.1.2; omega)
    have hx9 : x ≤ 9 := by
      rcases Nat.lt_or_ge x 10 with h | h
      · omega
      · have : x = 10 := by omega
        subst this
        have := hd'.1.2
        omega
    have hsub : subtract (mk' (dn + 10 * c) false) (mk' (n * x) false) =
        .ok (mk' (dn + 10 * c - x * n) false) := by
      rw [subtract_same, Nat.mul_comm n x]
      by_cases he : dn + 10 * c = x * n
      · rw [if_pos he, he]; simp
      · rw [if_neg he, if_neg (by omega)]
    obtain ⟨r, w, g1, g2, g3, g4⟩ := ih ((x : Int) :: q) (dn + 10 * c - x * n) hd'.2
      (by rw [Nat.add_mul, Nat.one_mul] at h4; omega)
    have hsame := divSearchC_same (mk' n false) (mk' (dn + 10 * c) false) 12 0 0 10
    rw [h1] at hsame
    cases hs : divSearchC (mk' n false) (mk' (dn + 10 * c) false) 12 0 0 10 with
    | error e => rw [hs] at hsame; cases hsame
    | ok a =>
      obtain ⟨x', k⟩ := a
      rw [hs] at hsame
      simp only [Except.map, Except.ok.injEq] at hsame
      subst hsame
      have hk := divSearchC_passes n (dn + 10 * c) 4 12 0 0 10 _ _ (by omega) (by omega) (by omega) (by decide) hs
      have hk2 := divSearchC_least n (dn + 10 * c) 2 12 0 0 10 _ _ (by omega) (by omega) (by decide) hs
      obtain ⟨l, e1, -, u1⟩ := multiplyC_mk n x false false
      have hl : l ≤ 2 * (digs n).length := by
        have := Nat.mul_le_mul_left (digs n).length (show (digs x).length + 1 ≤ 2 by have := (digs_small x (by omega)).2 hx9; omega)
        rw [Nat.mul_comm 2]
        omega
      have hcl := digs_mono (Nat.le_of_lt hc)
      have hp : subPasses (mk' (dn + 10 * c) false) (mk' (n * x) false) ≤ (digs n).length + 1 := by
        rw [subPasses]
        have hcd := digs_ten c dn (by have := hd'.1.2; omega)
        have hnx : n * x ≤ dn + 10 * c := by rw [Nat.mul_comm]; exact h3
        have := digs_mono hnx
        split
        · omega
        · split <;> simp only [mk'_digits] <;> omega
      refine ⟨r, ⟨k + l + subPasses (mk' (dn + 10 * c) false) (mk' (n * x) false) + w.passes, (digs c).length + q.length + w.moved⟩, ?_,
        ?_, ?_, ?_, ?_⟩
      · rw [divLoopC]
        simp only [mk'_digits, mk'_neg, hcur, bind, Except.bind, hs]
        rw [ofInt_nonneg _ (by omega)]
        simp only [Int.toNat_natCast]
        rw [e1]
        simp only [bne_self_eq_false, ite_self, hsub, g1]
        rfl
      · rw [List.length_cons, Nat.add_mul ds.length, Nat.one_mul]
        show k + l + subPasses (mk' (dn + 10 * c) false) (mk' (n * x) false) + w.passes ≤ _
        omega
      · rw [List.length_cons, stairs]
        rw [List.length_cons] at g3
        show _ ≤ (digs c).length + q.length + w.moved
        omega
      · rw [List.length_cons, stairs, Nat.add_mul ds.length, Nat.one_mul]
        rw [List.length_cons] at g4
        show (digs c).length + q.length + w.moved ≤ _
        omega
      · rw [List.length_cons, Nat.add_mul ds.length, Nat.one_mul]
        show _ ≤ k + l + subPasses (mk' (dn + 10 * c) false) (mk' (n * x) false) + w.passes
        omega

theorem divideC_mk (m n : Nat) (s t : Bool) (hn : 0 < n) : ∃ r w, divideC (mk' m s) (mk' n t) = .ok (r, w) ∧
    w.passes ≤ (digs m).length * (15 * (digs n).length + 1) ∧ stairs 0 (digs m).length ≤ w.moved ∧
      w.moved ≤ stairs 0 (digs m).length + (digs m).length * (digs n).length ∧ (digs m).length * (2 * (digs n).length) ≤ w.passes := by
  obtain ⟨r, w, h1, h2, h3, h4, h5⟩ := divLoopC_work n false (digs m).reverse [] 0
    (fun d hd => digs_valid m d (List.mem_reverse.mp hd)) hn
  rw [List.length_reverse] at h2 h3 h4 h5
  refine ⟨removeLeadingZeros ⟨r.digits, s != t⟩, w, ?_, h2, h3, h4, h5⟩
  · unfold divideC
    simp only [parse_zero, bind, Except.bind]
    rw [equal_mk, show decide (n = 0) = false by simp; omega]
    simp only [Bool.false_and, Bool.false_eq_true, if_false]
    have hz : (mk' 0 false : BigInt) = ⟨[], false⟩ := rfl
    have hd : (⟨digs n, false⟩ : BigInt) = mk' n false := rfl
    simp only [mk'_digits, mk'_neg]
    rw [hz] at h1 ⊢
    rw [hd, h1]
    rfl

end Caitlyn.BigInt
