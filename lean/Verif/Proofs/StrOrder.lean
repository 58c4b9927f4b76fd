import Verif.Proofs.Str

/-! Order and equality of strings of shaped characters. -/

namespace Caitlyn
open Spec

namespace Chr

/-- `bytesLt` is the lexicographic order of Lean's `List`. -/
theorem bytesLt_iff (a b : List UInt8) : bytesLt a b = true ↔ a < b := by
  induction a generalizing b with
  | nil => cases b <;> simp [bytesLt]
  | cons x a ih =>
    cases b with
    | nil => simp [bytesLt]
    | cons y b =>
      rw [List.cons_lt_cons_iff, ← ih]
      show (if x < y then true else if y < x then false else bytesLt a b) = true ↔ _
      split
      · rename_i h; simp [h]
      · rename_i h
        split
        · rename_i h2
          have : x ≠ y := by intro he; subst he; exact h h2
          simp [h, this]
        · rename_i h2
          have : x = y := by
            apply UInt8.toNat_inj.mp
            rw [u8_lt_iff] at h h2
            omega
          simp [this, UInt8.lt_irrefl]

theorem bytesLt_irrefl (a : List UInt8) : bytesLt a a = false := by
  induction a with
  | nil => rfl
  | cons x a ih => simp [bytesLt, ih, UInt8.lt_irrefl]

theorem bytesLt_total (a b : List UInt8) (h : a ≠ b) : bytesLt a b = true ∨ bytesLt b a = true := by
  induction a generalizing b with
  | nil => cases b with
    | nil => exact absurd rfl h
    | cons y b => simp [bytesLt]
  | cons x a ih =>
    cases b with
    | nil => simp [bytesLt]
    | cons y b =>
      by_cases hxy : x = y
      · subst hxy
        have := ih b (by intro hab; exact h (by rw [hab]))
        simpa [bytesLt, UInt8.lt_irrefl] using this
      · have : x < y ∨ y < x := by
          have : x.toNat ≠ y.toNat := fun h => hxy (UInt8.toNat_inj.mp h)
          rw [u8_lt_iff, u8_lt_iff]; omega
        rcases this with h | h <;> simp [bytesLt, h]

theorem bytesLt_append_left (p a b : List UInt8) : bytesLt (p ++ a) (p ++ b) = bytesLt a b := by
  induction p with
  | nil => rfl
  | cons x p ih => simp [bytesLt, ih, UInt8.lt_irrefl]

/-- If neither code word is a prefix of the other, what follows does not matter. -/
theorem bytesLt_append_of_not_prefix (p q a b : List UInt8) (h1 : ¬ p <+: q) (h2 : ¬ q <+: p) :
    bytesLt (p ++ a) (q ++ b) = bytesLt p q := by
  induction p generalizing q with
  | nil => exact absurd (List.nil_prefix) h1
  | cons x p ih =>
    cases q with
    | nil => exact absurd (List.nil_prefix) h2
    | cons y q =>
      simp only [List.cons_append, bytesLt]
      by_cases hxy : x = y
      · subst hxy
        rw [ih q (by simpa using h1) (by simpa using h2)]
      · have : x < y ∨ y < x := by
          have : x.toNat ≠ y.toNat := fun h => hxy (UInt8.toNat_inj.mp h)
          rw [u8_lt_iff, u8_lt_iff]; omega
        rcases this with h | h
        · simp [h]
        · have : ¬ x < y := by rw [u8_lt_iff] at *; omega
          simp [h, this]

end Chr

/-- Shaped characters are a prefix-free code. -/
theorem Shape.eq_of_prefix {p q : List UInt8} (hp : Shape p) (hq : Shape q) (h : p <+: q) : p = q := by
  obtain ⟨b, p', rfl⟩ : ∃ b p', p = b :: p' := by cases hp <;> exact ⟨_, _, rfl⟩
  obtain ⟨c, q', rfl⟩ : ∃ c q', q = c :: q' := by cases hq <;> exact ⟨_, _, rfl⟩
  have hbc : b = c ∧ p' <+: q' := by simpa using h
  obtain ⟨rfl, h'⟩ := hbc
  have e1 := Str.decodeLen_shape hp
  have e2 := Str.decodeLen_shape hq
  rw [e1] at e2
  exact h.eq_of_length (by simpa using e2)

theorem Shape.bytesLt_append {p q : List UInt8} (hp : Shape p) (hq : Shape q) (hne : p ≠ q)
    (a b : List UInt8) : Chr.bytesLt (p ++ a) (q ++ b) = Chr.bytesLt p q :=
  Chr.bytesLt_append_of_not_prefix p q a b (fun h => hne (Shape.eq_of_prefix hp hq h))
    (fun h => hne (Shape.eq_of_prefix hq hp h).symm)

namespace Str

theorem lt_eq_bytesLt (a b : Str) (ha : ∀ c ∈ a, Shape c.data) (hb : ∀ c ∈ b, Shape c.data) :
    lt a b = Chr.bytesLt (str a) (str b) := by
  rw [str_shapes a ha, str_shapes b hb]
  induction a generalizing b with
  | nil =>
    cases b with
    | nil => rfl
    | cons y b =>
      have := Shape.ne_nil (hb y (by simp))
      obtain ⟨u, v, h⟩ := List.exists_cons_of_ne_nil this
      simp [lt, Chr.bytesLt, h]
  | cons x a ih =>
    cases b with
    | nil => simp [lt, Chr.bytesLt]
    | cons y b =>
      have hx := ha x (by simp)
      have hy := hb y (by simp)
      simp only [List.map_cons, List.flatten_cons]
      have e1 : x.lt y = Chr.bytesLt x.data y.data := rfl
      have e2 : y.lt x = Chr.bytesLt y.data x.data := rfl
      have e0 : lt (x :: a) (y :: b) = (x.lt y || (!y.lt x && lt a b)) := by
        simp only [lt]; cases x.lt y <;> cases y.lt x <;> simp
      rw [e0, e1, e2]
      by_cases hxy : x = y
      · subst hxy
        rw [Chr.bytesLt_append_left, Chr.bytesLt_irrefl]
        simpa using ih b (fun c hc => ha c (by simp [hc])) (fun c hc => hb c (by simp [hc]))
      · have hd : x.data ≠ y.data := by intro h; apply hxy; cases x; cases y; simp at h; rw [h]
        rw [Shape.bytesLt_append hx hy hd]
        rcases Chr.bytesLt_total _ _ hd with h | h <;> simp [h]

theorem str_injective (a b : Str) (ha : ∀ c ∈ a, Shape c.data) (hb : ∀ c ∈ b, Shape c.data)
    (h : str a = str b) : a = b := by
  rw [str_shapes a ha, str_shapes b hb] at h
  induction a generalizing b with
  | nil =>
    cases b with
    | nil => rfl
    | cons y b =>
      have := Shape.ne_nil (hb y (by simp))
      simp at h; exact absurd h.1 this
  | cons x a ih =>
    cases b with
    | nil =>
      have := Shape.ne_nil (ha x (by simp))
      simp at h; exact absurd h.1 this
    | cons y b =>
      have hx := ha x (by simp)
      have hy := hb y (by simp)
      simp only [List.map_cons, List.flatten_cons] at h
      have hd : x.data = y.data := by
        rcases List.append_eq_append_iff.mp h with ⟨u, h1, _⟩ | ⟨u, h1, _⟩
        · exact Shape.eq_of_prefix hx hy ⟨u, h1.symm⟩
        · exact (Shape.eq_of_prefix hy hx ⟨u, h1.symm⟩).symm
      rw [hd] at h
      have := ih b (fun c hc => ha c (by simp [hc])) (fun c hc => hb c (by simp [hc]))
        (List.append_cancel_left h)
      rw [this]
      congr 1
      cases x; cases y; simp at hd; rw [hd]

end Str
end Caitlyn
