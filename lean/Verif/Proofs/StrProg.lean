import Verif.Spec.StrProg
import Verif.Props.Utf8
import Verif.Props.StrOps
import Verif.Props.CharClass

/-!
# Programs with `String`: one statement
-/

namespace Caitlyn.StrProg
open Spec

/-- The object that holds a text. -/
def repT (a : Points) : Str := a.map Chr.ofCodePoint

/-- All variables. -/
def repsT (w : TextVars) : Vars := fun x => repT (w x)

def AllPoints (w : TextVars) : Prop := ∀ x, ∀ cp ∈ w x, IsPoint cp

theorem repsT_set (w : TextVars) (x : Nat) (a : Points) : (repsT w).set x (repT a) = repsT (w.set x a) := by
  funext y; simp only [Vars.set, repsT, TextVars.set]; split <;> rfl

theorem points_set {w : TextVars} (h : AllPoints w) (x : Nat) (a : Points) (ha : ∀ cp ∈ a, IsPoint cp) :
    AllPoints (w.set x a) := by
  intro y
  simp only [TextVars.set]
  split
  · exact ha
  · exact h y

theorem repT_append (a b : Points) : repT (a ++ b) = repT a ++ repT b := List.map_append

theorem repT_length (a : Points) : (repT a).length = a.length := List.length_map _

theorem repT_take (a : Points) (n : Nat) : repT (a.take n) = (repT a).take n := List.map_take

theorem repT_drop (a : Points) (n : Nat) : repT (a.drop n) = (repT a).drop n := List.map_drop

theorem repT_replicate (n cp : Nat) : repT (List.replicate n cp) = List.replicate n (Chr.ofCodePoint cp) :=
  List.map_replicate

theorem isPoint_char (c : Char) (h : c ≠ Char.ofNat 0) : IsPoint c.val.toNat := by
  obtain ⟨h1, h2⟩ := char_nat_facts c h
  exact ⟨by omega, h1⟩

theorem isPoint_points (cs : List Char) (h : NoNul cs) : ∀ cp ∈ points cs, IsPoint cp := by
  intro cp hcp
  obtain ⟨c, hc, rfl⟩ := List.mem_map.mp hcp
  exact isPoint_char c (h c hc)

theorem fromCodePoint_units (cp : Nat) (h : IsPoint cp) : Chr.fromCodePoint cp = unitsOf cp := by
  have h1 := h.1
  have h2 := h.2
  rw [Chr.fromCodePoint_enc cp (by omega) (by omega)]
  simp only [Chr.enc, unitsOf, Nat.add_comm 0xC0, Nat.add_comm 0x80, Nat.add_comm 0xE0, Nat.add_comm 0xF0]

theorem shape_point (cp : Nat) (h : IsPoint cp) : Shape (Chr.fromCodePoint cp) := by
  have h1 := h.1
  have h2 := h.2
  have cont : ∀ x, Cont (UInt8.ofNat (x % 64 + 0x80)) := by
    intro x
    rw [← Chr.cont_iff]; exact Chr.cont_ofNat _ (Nat.mod_lt _ (by decide))
  have r2 : ∀ x < 32, 0xC0 ≤ UInt8.ofNat (x + 0xC0) ∧ UInt8.ofNat (x + 0xC0) ≤ 0xDF := by decide
  have r3 : ∀ x < 16, 0xE0 ≤ UInt8.ofNat (x + 0xE0) ∧ UInt8.ofNat (x + 0xE0) ≤ 0xEF := by decide
  have r4 : ∀ x < 8, 0xF0 ≤ UInt8.ofNat (x + 0xF0) ∧ UInt8.ofNat (x + 0xF0) ≤ 0xF7 := by decide
  have r1 : ∀ x < 128, x ≠ 0 → 1 ≤ UInt8.ofNat x ∧ UInt8.ofNat x ≤ 0x7F := by decide
  rw [Chr.fromCodePoint_arith _ (by omega), if_neg (by omega)]
  split
  · exact .one _ (r1 _ (by omega) (by omega)).1 (r1 _ (by omega) (by omega)).2
  split
  · exact .two _ _ (r2 _ (by omega)).1 (r2 _ (by omega)).2 (cont _)
  split
  · exact .three _ _ _ (r3 _ (by omega)).1 (r3 _ (by omega)).2 (cont _) (cont _)
  · exact .four _ _ _ _ (r4 _ (by omega)).1 (r4 _ (by omega)).2 (cont _) (cont _) (cont _)

theorem shapes_rep (a : Points) (h : ∀ cp ∈ a, IsPoint cp) : ∀ c ∈ repT a, Shape c.data := by
  intro c hc
  obtain ⟨cp, hcp, rfl⟩ := List.mem_map.mp hc
  exact shape_point cp (h cp hcp)

theorem ofCodePoint_inj (a b : Nat) (ha : IsPoint a) (hb : IsPoint b) (h : Chr.ofCodePoint a = Chr.ofCodePoint b) :
    a = b := by
  have h1 := ha.2
  have h2 := hb.2
  have := Chr.getCodePoint_ofCodePoint a (by omega)
  rw [h, Chr.getCodePoint_ofCodePoint b (by omega)] at this
  injection this with this
  exact this.symm

theorem repT_inj (a b : Points) (ha : ∀ cp ∈ a, IsPoint cp) (hb : ∀ cp ∈ b, IsPoint cp) (h : repT a = repT b) :
    a = b := by
  induction a generalizing b with
  | nil => cases b with
    | nil => rfl
    | cons => simp [repT] at h
  | cons x a ih => cases b with
    | nil => simp [repT] at h
    | cons y b =>
      simp only [repT, List.map_cons, List.cons.injEq] at h
      rw [ofCodePoint_inj x y (ha x (by simp)) (hb y (by simp)) h.1,
        ih b (fun c hc => ha c (by simp [hc])) (fun c hc => hb c (by simp [hc])) h.2]

theorem str_rep (a : Points) (h : ∀ cp ∈ a, IsPoint cp) : Str.str (repT a) = a.flatMap unitsOf := by
  rw [Str.str_shapes _ (shapes_rep a h), List.flatMap_def]
  simp only [repT, List.map_map]
  congr 1
  refine List.map_congr_left fun cp hcp => ?_
  exact fromCodePoint_units cp (h cp hcp)

theorem literal_rep (cs : List Char) (h : NoNul cs) : Str.ofCStr (literalMem cs) = .ok (repT (points cs)) := by
  have hps : ∀ p ∈ cs.map String.utf8EncodeChar, Shape p := by
    intro p hp
    obtain ⟨c, hc, rfl⟩ := List.mem_map.mp hp
    exact shape_utf8 c (h c hc)
  have := Str.ofCStr_shapes _ hps []
  rw [literalMem, utf8, List.flatMap_def, this]
  simp only [repT, points, List.map_map]
  refine congrArg Except.ok (List.map_congr_left fun c hc => ?_)
  simp only [Function.comp, Chr.ofCodePoint, Chr.fromCodePoint_eq_utf8 c (h c hc)]

theorem units_literal (cs : List Char) (h : NoNul cs) : (points cs).flatMap unitsOf = utf8 cs := by
  simp only [points, utf8, List.flatMap_map]
  rw [List.flatMap_def, List.flatMap_def]
  congr 1
  refine List.map_congr_left fun c hc => ?_
  rw [← fromCodePoint_units _ (isPoint_char c (h c hc)), Chr.fromCodePoint_eq_utf8 c (h c hc)]

theorem prefix_rep (a b : Points) (ha : ∀ cp ∈ a, IsPoint cp) (hb : ∀ cp ∈ b, IsPoint cp) :
    repT a <+: repT b ↔ a <+: b := by
  constructor
  · rintro ⟨t, ht⟩
    refine List.prefix_iff_eq_take.mpr ?_
    apply repT_inj a _ ha (fun cp h => hb cp (List.mem_of_mem_take h))
    rw [repT_take, ← ht, ← repT_length a, List.take_left]
  · rintro ⟨t, rfl⟩
    exact ⟨repT t, (repT_append a t).symm⟩

theorem occurs_rep (a b : Points) (ha : ∀ cp ∈ a, IsPoint cp) (hb : ∀ cp ∈ b, IsPoint cp) (i : Nat) :
    OccursAt (repT b) (repT a) i ↔ isAt a b i = true := by
  rw [occursAt_iff, and_comm]
  simp only [isAt, Bool.and_eq_true, decide_eq_true_eq, List.isPrefixOf_iff_prefix, repT_length, ← repT_drop]
  rw [prefix_rep b _ hb (fun cp h => ha cp (List.mem_of_mem_drop h))]

theorem firstIndex_some (a : Points) (p : Nat → Bool) (i : Nat) (h : p i = true) (hi : i ≤ a.length)
    (hm : ∀ j, p j = true → i ≤ j) : firstIndex a p = some i := by
  rw [firstIndex, List.find?_range_eq_some]
  refine ⟨h, by simp; omega, fun j hj => ?_⟩
  cases hp : p j with
  | false => rfl
  | true => have := hm j hp; omega

theorem firstIndex_none (a : Points) (p : Nat → Bool) (h : ∀ j, p j = false) : firstIndex a p = none := by
  rw [firstIndex, List.find?_range_eq_none]
  intro j _; rw [h]; rfl

theorem lastFind_some (p : Nat → Bool) (n i : Nat) (h : p i = true) (hi : i < n)
    (hm : ∀ j, p j = true → j ≤ i) : (List.range n).reverse.find? p = some i := by
  induction n with
  | zero => omega
  | succ n ih =>
    rw [List.range_succ, List.reverse_append, List.reverse_singleton, List.singleton_append, List.find?_cons]
    by_cases e : i = n
    · subst e; rw [h]
    · have : p n = false := by
        cases hp : p n with
        | false => rfl
        | true => have := hm n hp; omega
      rw [this]
      exact ih (by omega)

theorem lastIndex_some (a : Points) (p : Nat → Bool) (i : Nat) (h : p i = true) (hi : i ≤ a.length)
    (hm : ∀ j, p j = true → j ≤ i) : lastIndex a p = some i := lastFind_some p _ i h (by omega) hm

theorem lastIndex_none (a : Points) (p : Nat → Bool) (h : ∀ j, p j = false) : lastIndex a p = none := by
  rw [lastIndex, List.find?_eq_none]
  intro j _; rw [h]; simp

theorem isAt_le {a b : Points} {i : Nat} (h : isAt a b i = true) : i ≤ a.length := by
  simp only [isAt, Bool.and_eq_true, decide_eq_true_eq] at h
  exact h.1

theorem find_rep (a b : Points) (ha : ∀ cp ∈ a, IsPoint cp) (hb : ∀ cp ∈ b, IsPoint cp) (pos : Nat) (hn : b ≠ [])
    (hp : pos ≤ a.length) : Str.find (repT a) (repT b) pos
      = .ok (orNone (firstIndex a fun i => decide (pos ≤ i) && isAt a b i)) := by
  have hr : repT b ≠ [] := by simpa [repT] using hn
  rcases C11_find_first (repT a) (repT b) pos hr (by simpa [Str.size, repT_length] using hp) with
    ⟨i, h1, h2, h3, h4⟩ | ⟨h1, h2⟩
  · rw [h1]
    have h3' := (occurs_rep a b ha hb i).mp h3
    rw [firstIndex_some a _ i (by simp [h2, h3']) (isAt_le h3') ?_]
    · rfl
    · intro j hj
      simp only [Bool.and_eq_true, decide_eq_true_eq] at hj
      exact h4 j hj.1 ((occurs_rep a b ha hb j).mpr hj.2)
  · rw [h1, firstIndex_none]
    · rfl
    · intro j
      rw [Bool.eq_false_iff]
      intro hj
      simp only [Bool.and_eq_true, decide_eq_true_eq] at hj
      exact h2 j hj.1 ((occurs_rep a b ha hb j).mpr hj.2)

theorem rfind_rep (a b : Points) (ha : ∀ cp ∈ a, IsPoint cp) (hb : ∀ cp ∈ b, IsPoint cp) (pos : Nat) (hn : b ≠ [])
    (hs : a.length < 2 ^ 63) : Str.reverseFind (repT a) (repT b) pos
      = .ok (orNone ((lastIndex a fun i => decide (i + b.length ≤ pos + 1) && isAt a b i).map (· + b.length - 1))) := by
  have hr : repT b ≠ [] := by simpa [repT] using hn
  rcases C12_reverse_find_exact (repT a) (repT b) pos hr (by simpa [Str.size, repT_length] using hs) with
    ⟨i, h1, h2, h3, h4⟩ | ⟨h1, h2⟩
  · rw [h4]
    simp only [repT_length] at *
    have h1' := (occurs_rep a b ha hb i).mp h1
    rw [lastIndex_some a _ i (by simp [h2, h1']) (isAt_le h1') ?_]
    · rfl
    · intro j hj
      simp only [Bool.and_eq_true, decide_eq_true_eq] at hj
      exact h3 j ((occurs_rep a b ha hb j).mpr hj.2) hj.1
  · rw [h2, lastIndex_none]
    · rfl
    · intro j
      rw [Bool.eq_false_iff]
      intro hj
      simp only [Bool.and_eq_true, decide_eq_true_eq] at hj
      simp only [repT_length] at h1
      exact h1 j ((occurs_rep a b ha hb j).mpr hj.2) hj.1

theorem rfind_empty (s : Str) (pos : Nat) (hs : s.length < 2 ^ 63) :
    Str.reverseFind s [] pos = .ok (if s = [] then 2 ^ 64 - 1 else min pos (s.length - 1)) := by
  have e : ∀ t : Str, Str.search t [] = 0 := by intro t; rw [Str.search.eq_def]; simp
  unfold Str.reverseFind
  simp only [List.length_nil, List.reverse_nil, e]
  rw [if_neg (by omega)]
  cases s with
  | nil =>
    simp [wsub, npos, twoPow64]
  | cons x s =>
    simp only [List.length_cons] at *
    have e1 : wsub (s.length + 1) 1 = s.length := by unfold wsub twoPow64; omega
    have e2 : (if pos ≥ s.length + 1 then wsub (s.length + 1) 1 else pos) = min pos s.length := by
      rw [e1]; split <;> omega
    rw [e2]
    have e3 : wsub (wsub (s.length + 1) (min pos s.length)) 1 = s.length - min pos s.length := by
      unfold wsub twoPow64; omega
    rw [e3, if_neg (by omega), e1, if_pos (by omega)]
    have e4 : wsub s.length (s.length - min pos s.length + 0) = min pos s.length := by
      unfold wsub twoPow64; omega
    rw [e4]
    simp

theorem contains_rep (a b : Points) (ha : ∀ cp ∈ a, IsPoint cp) (hb : ∀ cp ∈ b, IsPoint cp) (h : a ≠ [] ∨ b ≠ []) :
    Str.contains (repT a) (repT b) = (firstIndex a (isAt a b)).isSome := by
  rw [Bool.eq_iff_iff, C13_contains _ _ (by simpa [repT, or_comm] using h), ← occurs_iff_infix]
  simp only [firstIndex, List.find?_isSome, List.mem_range]
  constructor
  · rintro ⟨i, hi⟩
    have := (occurs_rep a b ha hb i).mp hi
    exact ⟨i, by have := isAt_le this; omega, this⟩
  · rintro ⟨i, _, hi⟩
    exact ⟨i, (occurs_rep a b ha hb i).mpr hi⟩

theorem startsWith_rep (a b : Points) (ha : ∀ cp ∈ a, IsPoint cp) (hb : ∀ cp ∈ b, IsPoint cp) :
    Str.startsWith (repT a) (repT b) = isAt a b 0 := by
  rw [Bool.eq_iff_iff, C13_starts_with, ← occursAt_zero, occurs_rep a b ha hb]

theorem endsWith_rep (a b : Points) (ha : ∀ cp ∈ a, IsPoint cp) (hb : ∀ cp ∈ b, IsPoint cp) :
    Str.endsWith (repT a) (repT b) = (decide (b.length ≤ a.length) && isAt a b (a.length - b.length)) := by
  rw [Bool.eq_iff_iff, C13_ends_with]
  simp only [Bool.and_eq_true, decide_eq_true_eq, ← occurs_rep a b ha hb, occursAt_iff, repT_length]
  constructor
  · intro h
    have h1 := h.length_le
    simp only [repT_length] at h1
    have := List.suffix_iff_eq_drop.mp h
    simp only [repT_length] at this
    exact ⟨h1, by rw [← this]; exact List.prefix_refl _, by omega⟩
  · rintro ⟨h1, h2, _⟩
    have : repT b = (repT a).drop (a.length - b.length) := by
      apply h2.eq_of_length
      simp only [List.length_drop, repT_length]; omega
    rw [this]
    exact List.drop_suffix _ _

theorem lt_point (x y : Nat) (hx : IsPoint x) (hy : IsPoint y) :
    Chr.lt (Chr.ofCodePoint x) (Chr.ofCodePoint y) = decide (x < y) := by
  have h1 := hx.1
  have h2 := hx.2
  have h3 := hy.1
  have h4 := hy.2
  simp only [Chr.lt, Chr.ofCodePoint]
  rw [Bool.eq_iff_iff, decide_eq_true_eq]
  constructor
  · intro h
    rcases Nat.lt_trichotomy x y with e | e | e
    · exact e
    · rw [e, Chr.bytesLt_irrefl] at h; cases h
    · have := Chr.bytesLt_asymm _ _ (Chr.bytesLt_encode _ _ (by omega) (by omega) e)
      rw [this] at h; cases h
  · intro h
    exact Chr.bytesLt_encode _ _ (by omega) (by omega) h

theorem lt_rep (a b : Points) (ha : ∀ cp ∈ a, IsPoint cp) (hb : ∀ cp ∈ b, IsPoint cp) :
    Str.lt (repT a) (repT b) = decide (a < b) := by
  induction a generalizing b with
  | nil => cases b <;> simp [repT, Str.lt]
  | cons x a ih =>
    cases b with
    | nil => simp [repT, Str.lt]
    | cons y b =>
      have := ih b (fun c hc => ha c (by simp [hc])) (fun c hc => hb c (by simp [hc]))
      simp only [repT, List.map_cons, Str.lt] at *
      rw [lt_point x y (ha x (by simp)) (hb y (by simp)), lt_point y x (hb y (by simp)) (ha x (by simp)), this]
      simp only [List.cons_lt_cons_iff, decide_eq_true_eq]
      rcases Nat.lt_trichotomy x y with e | e | e
      · simp [e]
      · subst e; simp
      · rw [if_neg (by omega), if_pos e]
        symm
        rw [decide_eq_false_iff_not]
        rintro (h | ⟨h, _⟩) <;> omega

theorem eq_rep (a b : Points) (ha : ∀ cp ∈ a, IsPoint cp) (hb : ∀ cp ∈ b, IsPoint cp) :
    Str.eq (repT a) (repT b) = decide (a = b) := by
  rw [Bool.eq_iff_iff]
  simp only [Str.eq, beq_iff_eq, decide_eq_true_eq]
  exact ⟨repT_inj a b ha hb, fun h => by rw [h]⟩

theorem cmp_rep (op : Cmp) (a b : Points) (ha : ∀ cp ∈ a, IsPoint cp) (hb : ∀ cp ∈ b, IsPoint cp) :
    op.eval (repT a) (repT b) = Points.cmp op a b := by
  cases op <;> simp only [Cmp.eval, Points.cmp, Str.gt, Str.le, Str.ge, lt_rep a b ha hb, lt_rep b a hb ha, eq_rep a b ha hb]

theorem cmpLit_rep (op : Cmp) (a : Points) (cs : List Char) (ha : ∀ cp ∈ a, IsPoint cp) (hc : NoNul cs) :
    op.evalLit (repT a) (utf8 cs) = Points.cmp op a (points cs) := by
  have hb := isPoint_points cs hc
  have e := str_rep (points cs) hb
  rw [units_literal cs hc] at e
  have l1 := lt_rep a (points cs) ha hb
  have l2 := lt_rep (points cs) a hb ha
  have l3 := eq_rep a (points cs) ha hb
  rw [Str.lt_eq_bytesLt _ _ (shapes_rep _ ha) (shapes_rep _ hb), e] at l1
  rw [Str.lt_eq_bytesLt _ _ (shapes_rep _ hb) (shapes_rep _ ha), e] at l2
  rw [(C08_equality_is_byte_equality _ _ (shapes_rep _ ha) (shapes_rep _ hb)).2, e] at l3
  cases op <;> simp only [Cmp.evalLit, Points.cmp, Str.ltCStr, Str.gtCStr, Str.leCStr, Str.geCStr, l1, l2, l3]

theorem byteCount_rep (a : Points) (h : ∀ cp ∈ a, IsPoint cp) :
    Str.byteCount (repT a) = (a.flatMap unitsOf).length := by
  simp only [Str.byteCount, repT, List.map_map, List.length_flatMap]
  congr 1
  refine List.map_congr_left fun cp hcp => ?_
  simp only [Function.comp, Chr.ofCodePoint, fromCodePoint_units cp (h cp hcp)]

theorem case_rep (a : Points) (h : ∀ cp ∈ a, IsPoint cp) :
    Str.toUppercase (repT a) = .ok (repT (a.map CharUtil.toUppercase)) ∧
    Str.toLowercase (repT a) = .ok (repT (a.map CharUtil.toLowercase)) := by
  obtain ⟨u, l, h1, h2, _, _, rfl, rfl⟩ := C16_elementwise (repT a) a (by
    simp only [repT, List.map_map]
    refine List.map_congr_left fun cp hcp => ?_
    have := (h cp hcp).2
    exact Chr.getCodePoint_ofCodePoint cp (by omega))
  rw [h1, h2]
  simp [repT]

theorem ite_ind {P : Nat → Prop} {c : Prop} [Decidable c] {a b : Nat} (h1 : c → P a) (h2 : ¬ c → P b) :
    P (if c then a else b) := by
  by_cases h : c
  · rw [if_pos h]; exact h1 h
  · rw [if_neg h]; exact h2 h

def UpRange (cp r : Nat) : Prop := r = cp ∨ (cp ≠ 0 ∧ 0 < r ∧ r < 0x10000 ∧ ¬ (0xD800 ≤ r ∧ r < 0xE000))

def LowRange (cp r : Nat) : Prop := r = cp ∨ (cp ≠ 0 ∧ 0 < r ∧ r < 0x10000) ∨ (0 < r ∧ r < cp)

theorem upper_range (cp : Nat) : UpRange cp (CharUtil.toUppercase cp) := by
  unfold CharUtil.toUppercase
  repeat' (apply ite_ind (P := UpRange cp) <;> intro)
  all_goals (unfold UpRange; omega)

theorem lower_range (cp : Nat) : LowRange cp (CharUtil.toLowercase cp) := by
  unfold CharUtil.toLowercase
  repeat' (apply ite_ind (P := LowRange cp) <;> intro)
  all_goals (unfold LowRange; omega)

theorem upper_point (cp : Nat) (h : IsPoint cp) : IsPoint (CharUtil.toUppercase cp) := by
  have := upper_range cp
  simp only [IsPoint, UpRange] at *
  omega

theorem lower_point (cp : Nat) (h : IsPoint cp) : IsPoint (CharUtil.toLowercase cp) := by
  have := lower_range cp
  simp only [IsPoint, LowRange] at *
  omega

/-- What a statement must do with the objects if the exact meaning is `r`. -/
def Matches (w : TextVars) (s : Stmt) : Option (Out × TextVars) → Prop
  | some (o, w') => step (repsT w) s = .ok (o, repsT w') ∧ AllPoints w'
  | none => step (repsT w) s = .error .ub

theorem store_rep {w : TextVars} (hw : AllPoints w) (x : Nat) (a : Points) (ha : ∀ cp ∈ a, IsPoint cp) :
    store (repsT w) x (.ok (repT a)) = .ok (.done, repsT (w.set x a)) ∧ AllPoints (w.set x a) :=
  ⟨by simp only [store, repsT_set], points_set hw x a ha⟩

theorem change_rep {w : TextVars} (hw : AllPoints w) (s : Stmt) (ok : Prop) [Decidable ok] (x : Nat) (a : Points)
    (ha : ok → ∀ cp ∈ a, IsPoint cp) (r : Res Str) (hs : step (repsT w) s = store (repsT w) x r)
    (h1 : ok → r = .ok (repT a)) (h2 : ¬ ok → r = .error .outOfRange) : Matches w s (w.change ok x a) := by
  unfold TextVars.change
  by_cases h : ok
  · rw [if_pos h]
    obtain ⟨e1, e2⟩ := store_rep hw x a (ha h)
    exact ⟨by rw [hs, h1 h, e1], e2⟩
  · rw [if_neg h]
    exact ⟨by rw [hs, h2 h]; rfl, hw⟩

theorem append_points {a b : Points} (ha : ∀ cp ∈ a, IsPoint cp) (hb : ∀ cp ∈ b, IsPoint cp) :
    ∀ cp ∈ a ++ b, IsPoint cp := by
  intro cp h
  rcases List.mem_append.mp h with h | h
  · exact ha cp h
  · exact hb cp h

theorem replicate_points (n : Nat) (c : Char) (h : c ≠ Char.ofNat 0) :
    ∀ cp ∈ List.replicate n c.val.toNat, IsPoint cp := by
  intro cp hcp
  rw [List.eq_of_mem_replicate hcp]
  exact isPoint_char c h

theorem take_points {a : Points} (ha : ∀ cp ∈ a, IsPoint cp) (n : Nat) : ∀ cp ∈ a.take n, IsPoint cp :=
  fun cp h => ha cp (List.mem_of_mem_take h)

theorem drop_points {a : Points} (ha : ∀ cp ∈ a, IsPoint cp) (n : Nat) : ∀ cp ∈ a.drop n, IsPoint cp :=
  fun cp h => ha cp (List.mem_of_mem_drop h)

theorem at_rep (a : Points) (i : Nat) (h : i < a.length) :
    Str.at' (repT a) i = .ok (Chr.ofCodePoint a[i]) ∧ Str.index (repT a) i = .ok (Chr.ofCodePoint a[i]) := by
  have e : vecGet (repT a) i = .ok (Chr.ofCodePoint a[i]) := by
    simp [vecGet, repT, h]
  refine ⟨?_, e⟩
  rw [Str.at', if_neg (by simp only [Str.size, repT_length]; omega), e]

theorem at_beyond (a : Points) (i : Nat) (h : ¬ i < a.length) :
    Str.at' (repT a) i = .error .outOfRange ∧ Str.index (repT a) i = .error .ub := by
  refine ⟨by rw [Str.at', if_pos (by simp only [Str.size, repT_length]; omega)], ?_⟩
  simp [Str.index, vecGet, repT, h]

theorem set_rep (a : Points) (i : Nat) (c : Char) : (repT a).set i (chr c) = repT (a.set i c.val.toNat) := by
  simp only [repT, List.map_set, chr]

theorem set_points {a : Points} (ha : ∀ cp ∈ a, IsPoint cp) (i : Nat) (c : Char) (h : c ≠ Char.ofNat 0) :
    ∀ cp ∈ a.set i c.val.toNat, IsPoint cp := by
  intro cp hcp
  rcases List.mem_or_eq_of_mem_set hcp with h' | h'
  · exact ha cp h'
  · rw [h']; exact isPoint_char c h

theorem argOf_self (v : Vars) (x : Nat) : argOf v x x = .self := by simp [argOf]

theorem argOf_other (v : Vars) (x y : Nat) (h : x ≠ y) : argOf v x y = .other (v y) := by simp [argOf, h]

theorem copy_rep (w : TextVars) (x y : Nat) :
    (if x = y then repsT w else (repsT w).set x (repsT w y)) = repsT (w.set x (w y)) := by
  split
  · rename_i e
    subst e
    funext k
    simp only [repsT, TextVars.set]
    split
    · rename_i e; rw [e]
    · rfl
  · rw [← repsT_set]; rfl

theorem give_rep {w : TextVars} (n : Nat) : give (repsT w) (.ok n) = .ok (.number n, repsT w) := rfl

/-- One statement. -/
theorem step_rep (w : TextVars) (hw : AllPoints w) (s : Stmt) (hs : StrNoNul s) (hr : w.Room s) :
    Matches w s (w.step s) := by
  cases s with
  | literal x cs =>
    obtain ⟨e1, e2⟩ := store_rep hw x (points cs) (isPoint_points cs hs)
    exact ⟨by rw [step, literal_rep cs hs, e1], e2⟩
  | fill x n c =>
    obtain ⟨e1, e2⟩ := store_rep hw x _ (replicate_points n c hs)
    exact ⟨by rw [step, Str.ofCountChr, chr, ← repT_replicate, e1], e2⟩
  | plus x y z =>
    obtain ⟨e1, e2⟩ := store_rep hw x _ (append_points (hw y) (hw z))
    exact ⟨by rw [step, Str.plus]; simp only [repsT]; rw [← repT_append]; exact e1, e2⟩
  | plusAssign x y =>
    simp only [TextVars.step]
    by_cases h : x = y
    · subst h
      rw [if_pos rfl]
      simp [Matches, step, argOf_self, Str.plusAssign, store]
    · rw [if_neg h]
      obtain ⟨e1, e2⟩ := store_rep hw x _ (append_points (hw x) (hw y))
      exact ⟨by rw [step, argOf_other _ _ _ h, Str.plusAssign]; simp only [repsT]; rw [← repT_append]; exact e1, e2⟩
  | append x cs =>
    obtain ⟨e1, e2⟩ := store_rep hw x _ (append_points (hw x) (isPoint_points cs hs))
    refine ⟨?_, e2⟩
    rw [step, Str.appendCStr, literal_rep cs hs]
    simp only [repsT, bind, Except.bind, pure, Except.pure]
    rw [← repT_append]
    exact e1
  | appendCount x n c =>
    obtain ⟨e1, e2⟩ := store_rep hw x _ (append_points (hw x) (replicate_points n c hs))
    exact ⟨by rw [step, Str.appendCount, chr, ← repT_replicate]; simp only [repsT]; rw [← repT_append]; exact e1, e2⟩
  | push x c =>
    obtain ⟨e1, e2⟩ := store_rep hw x (w x ++ [c.val.toNat]) (append_points (hw x) (replicate_points 1 c hs))
    refine ⟨?_, e2⟩
    rw [step, Str.pushBack, chr]
    rw [repT_append] at e1
    exact e1
  | pushOf x y i =>
    refine change_rep hw _ _ x _ (fun _ => append_points (hw x) (take_points (drop_points (hw y) i) 1)) _ rfl ?_ ?_
    · intro h
      simp only [repsT, (at_rep _ i h).1, Except.map, Str.pushBack, repT_append]
      congr 2
      rw [List.drop_eq_getElem_cons h]; rfl
    · intro h
      simp only [repsT, (at_beyond _ i h).1, Except.map]
  | insert x pos y =>
    simp only [TextVars.step]
    by_cases h : x = y
    · subst h
      by_cases hp : pos ≤ (w x).length
      · rw [if_pos ⟨rfl, hp⟩]
        have : ¬ pos > (repsT w x).length := by simp only [repsT, repT_length]; omega
        simp [Matches, step, argOf_self, Str.insert, store, this]
      · rw [if_neg (by simp [hp])]
        refine change_rep hw _ _ x _ (fun h => absurd h hp) _ rfl (fun h => absurd h hp) ?_
        intro _
        rw [Str.insert.eq_def, if_pos (by simp only [repsT, repT_length]; omega)]
    · rw [if_neg (by simp [h])]
      refine change_rep hw _ _ x _
        (fun _ => append_points (append_points (take_points (hw x) pos) (hw y)) (drop_points (hw x) pos)) _ rfl ?_ ?_
      · intro hp
        rw [Str.insert.eq_def, if_neg (by simp only [repsT, repT_length]; omega), argOf_other _ _ _ h]
        simp only [repsT, repT_append, repT_take, repT_drop]
      · intro hp
        rw [Str.insert.eq_def, if_pos (by simp only [repsT, repT_length]; omega)]
  | insertLit x pos cs =>
    refine change_rep hw _ _ x _
      (fun _ => append_points (append_points (take_points (hw x) pos) (isPoint_points cs hs))
        (drop_points (hw x) pos)) _ rfl ?_ ?_
    · intro hp
      rw [Str.insertCStr, if_neg (by simp only [repsT, repT_length]; omega), literal_rep cs hs]
      simp only [repsT, repT_append, repT_take, repT_drop, bind, Except.bind, pure, Except.pure]
    · intro hp
      rw [Str.insertCStr, if_pos (by simp only [repsT, repT_length]; omega)]
  | insertCount x pos n c =>
    refine change_rep hw _ _ x _
      (fun _ => append_points (append_points (take_points (hw x) pos) (replicate_points n c hs))
        (drop_points (hw x) pos)) _ rfl ?_ ?_
    · intro hp
      rw [Str.insertCount, if_neg (by simp only [repsT, repT_length]; omega)]
      simp only [repsT, repT_append, repT_take, repT_drop, repT_replicate, chr]
    · intro hp
      rw [Str.insertCount, if_pos (by simp only [repsT, repT_length]; omega)]
  | substring x y pos count =>
    refine change_rep hw _ _ x _ (fun _ => take_points (drop_points (hw y) pos) count) _ rfl ?_ ?_
    · intro hp
      rw [(C10_substring _ pos count).2 (by simpa only [Str.size, repsT, repT_length] using hp)]
      simp only [repsT, repT_take, repT_drop]
    · intro hp
      exact (C10_substring _ pos count).1 (by simp only [Str.size, repsT, repT_length]; omega)
  | clear x =>
    obtain ⟨e1, e2⟩ := store_rep hw x [] (by simp)
    exact ⟨e1, e2⟩
  | copy x y =>
    refine ⟨?_, points_set hw x _ (hw y)⟩
    rw [step, copy_rep]
  | move x y =>
    simp only [TextVars.step, TextVars.intended, Matches, step]
    by_cases h : x = y
    · simp only [h, if_true]
      exact ⟨trivial, hw⟩
    · simp only [h, if_false]
      refine ⟨?_, points_set (points_set hw x _ (hw y)) y [] (by simp)⟩
      rw [← repsT_set, ← repsT_set]; rfl
  | setAt x i c =>
    refine change_rep hw _ _ x _ (fun _ => set_points (hw x) i c hs) _ rfl ?_ ?_
    · intro h
      simp only [repsT, (at_rep _ i h).1, Except.map, set_rep]
    · intro h
      simp only [repsT, (at_beyond _ i h).1, Except.map]
  | setIndex x i c =>
    simp only [TextVars.step, TextVars.intended]
    by_cases h : i < (w x).length
    · rw [if_pos h]
      obtain ⟨e1, e2⟩ := store_rep hw x _ (set_points (hw x) i c hs)
      refine ⟨?_, e2⟩
      rw [step]
      simp only [repsT, (at_rep _ i h).2, Except.map, set_rep]
      exact e1
    · rw [if_neg h]
      simp only [Matches, step, repsT, (at_beyond _ i h).2, Except.map, store]
  | upper x y =>
    obtain ⟨e1, e2⟩ := store_rep hw x ((w y).map CharUtil.toUppercase) (by
      intro cp h
      obtain ⟨c, hc, rfl⟩ := List.mem_map.mp h
      exact upper_point c (hw y c hc))
    refine ⟨?_, e2⟩
    rw [step, show repsT w y = repT (w y) from rfl, (case_rep (w y) (hw y)).1, e1]
  | lower x y =>
    obtain ⟨e1, e2⟩ := store_rep hw x ((w y).map CharUtil.toLowercase) (by
      intro cp h
      obtain ⟨c, hc, rfl⟩ := List.mem_map.mp h
      exact lower_point c (hw y c hc))
    refine ⟨?_, e2⟩
    rw [step, show repsT w y = repT (w y) from rfl, (case_rep (w y) (hw y)).2, e1]
  | print x => exact ⟨by rw [step, show repsT w x = repT (w x) from rfl, str_rep _ (hw x)], hw⟩
  | size x => exact ⟨by rw [step, give_rep, Str.size, show repsT w x = repT (w x) from rfl, repT_length], hw⟩
  | byteCount x => exact ⟨by rw [step, give_rep, show repsT w x = repT (w x) from rfl, byteCount_rep _ (hw x)], hw⟩
  | isEmpty x =>
    refine ⟨?_, hw⟩
    rw [step, show repsT w x = repT (w x) from rfl]
    cases w x <;> rfl
  | at' x i =>
    simp only [TextVars.step, TextVars.intended, Matches, step]
    refine ⟨?_, hw⟩
    by_cases h : i < (w x).length
    · have := (hw x _ (List.getElem_mem h)).2
      simp only [repsT, (at_rep _ i h).1, bind, Except.bind, dif_pos h]
      rw [Chr.getCodePoint_ofCodePoint _ (by omega)]
      rfl
    · simp only [repsT, (at_beyond _ i h).1, bind, Except.bind, dif_neg h]
      rfl
  | index x i =>
    simp only [TextVars.step, TextVars.intended]
    by_cases h : i < (w x).length
    · rw [dif_pos h]
      refine ⟨?_, hw⟩
      have := (hw x _ (List.getElem_mem h)).2
      simp only [step, repsT, (at_rep _ i h).2, bind, Except.bind]
      rw [Chr.getCodePoint_ofCodePoint _ (by omega)]
      rfl
    · rw [dif_neg h]
      simp only [Matches, step, repsT, (at_beyond _ i h).2, bind, Except.bind]
      rfl
  | compare op x y =>
    exact ⟨by rw [step, show repsT w x = repT (w x) from rfl, show repsT w y = repT (w y) from rfl,
      cmp_rep op _ _ (hw x) (hw y)], hw⟩
  | compareLit op x cs =>
    exact ⟨by rw [step, show repsT w x = repT (w x) from rfl, cmpLit_rep op _ cs (hw x) hs], hw⟩
  | startsWith x y =>
    exact ⟨by rw [step, show repsT w x = repT (w x) from rfl, show repsT w y = repT (w y) from rfl,
      startsWith_rep _ _ (hw x) (hw y)], hw⟩
  | endsWith x y =>
    exact ⟨by rw [step, show repsT w x = repT (w x) from rfl, show repsT w y = repT (w y) from rfl,
      endsWith_rep _ _ (hw x) (hw y)], hw⟩
  | contains x y =>
    simp only [TextVars.step]
    by_cases h : w x = [] ∧ w y = []
    · rw [if_pos h]
      refine ⟨?_, hw⟩
      rw [step, show repsT w x = repT (w x) from rfl, show repsT w y = repT (w y) from rfl, h.1, h.2]
      have : Str.contains (repT []) (repT []) = false := by decide
      rw [this]
    · rw [if_neg h]
      refine ⟨?_, hw⟩
      rw [step, show repsT w x = repT (w x) from rfl, show repsT w y = repT (w y) from rfl,
        contains_rep _ _ (hw x) (hw y) (Decidable.not_and_iff_or_not.mp h)]
  | find x y pos =>
    simp only [TextVars.step]
    have hl : Str.size (repT (w x)) = (w x).length := repT_length _
    by_cases hb : w y = []
    · by_cases hp : pos = (w x).length
      · rw [if_pos ⟨hb, hp⟩]
        refine ⟨?_, hw⟩
        rw [step, show repsT w x = repT (w x) from rfl, show repsT w y = repT (w y) from rfl, hb,
          show repT [] = [] from rfl, (C11_find_other _ [] pos).2.2 (by rw [hl]; exact hp), give_rep]
        rfl
      · rw [if_neg (by simp [hp]), TextVars.intended]
        by_cases hlt : pos ≤ (w x).length
        · rw [if_pos hlt]
          refine ⟨?_, hw⟩
          rw [step, show repsT w x = repT (w x) from rfl, show repsT w y = repT (w y) from rfl, hb,
            show repT [] = [] from rfl, (C11_find_other _ [] pos).2.1 (by rw [hl]; omega), give_rep]
          rw [firstIndex_some _ _ pos (by simp [isAt, hlt]) hlt]
          · rfl
          · intro j hj
            simp only [Bool.and_eq_true, decide_eq_true_eq] at hj
            exact hj.1
        · rw [if_neg hlt]
          simp only [Matches, step, repsT]
          rw [(C11_find_other _ _ pos).1 (by rw [hl]; omega)]
          rfl
    · rw [if_neg (by simp [hb]), TextVars.intended]
      by_cases hlt : pos ≤ (w x).length
      · rw [if_pos hlt]
        refine ⟨?_, hw⟩
        rw [step, show repsT w x = repT (w x) from rfl, show repsT w y = repT (w y) from rfl,
          find_rep _ _ (hw x) (hw y) pos hb hlt, give_rep]
      · rw [if_neg hlt]
        simp only [Matches, step, repsT]
        rw [(C11_find_other _ _ pos).1 (by rw [hl]; omega)]
        rfl
  | rfind x y pos =>
    simp only [TextVars.step]
    by_cases hb : w y = []
    · rw [if_pos hb]
      refine ⟨?_, hw⟩
      rw [step, show repsT w x = repT (w x) from rfl, show repsT w y = repT (w y) from rfl, hb,
        show repT [] = [] from rfl, rfind_empty _ pos (by rw [repT_length]; exact hr), give_rep, repT_length]
      have : repT (w x) = [] ↔ w x = [] := by simp [repT]
      simp only [this]
    · rw [if_neg hb]
      refine ⟨?_, hw⟩
      rw [step, show repsT w x = repT (w x) from rfl, show repsT w y = repT (w y) from rfl,
        rfind_rep _ _ (hw x) (hw y) pos hb hr, give_rep]

end Caitlyn.StrProg
