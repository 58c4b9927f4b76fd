import Verif.Spec.Locale
import Verif.Proofs.JsonPrint

/-! # Proofs about numbers in locales -/

namespace Caitlyn
open Spec Json

namespace Punct

theorem groupsRev_flatten : ∀ (n : Nat) (gs : List Nat) (ds : Str), (groupsRev n gs ds).flatten = ds
  | 0, gs, ds => by cases gs <;> simp [groupsRev]
  | n + 1, [], ds => by simp [groupsRev]
  | n + 1, g :: gs, ds => by
    rw [groupsRev]
    split
    · simp
    · rw [List.flatten_cons, groupsRev_flatten n, List.take_append_drop]

theorem groupsRev_ne_nil : ∀ (n : Nat) (gs : List Nat) (ds : Str), groupsRev n gs ds ≠ []
  | 0, gs, ds => by cases gs <;> simp [groupsRev]
  | n + 1, [], ds => by simp [groupsRev]
  | n + 1, g :: gs, ds => by
    rw [groupsRev]
    split <;> simp

theorem groupsRev_nonempty : ∀ (n : Nat) (gs : List Nat) (ds : Str), ds ≠ [] → ∀ x ∈ groupsRev n gs ds, x ≠ []
  | 0, gs, ds, h => by cases gs <;> simpa [groupsRev] using h
  | n + 1, [], ds, h => by simpa [groupsRev] using h
  | n + 1, g :: gs, ds, h => by
    rw [groupsRev]
    split
    · simpa using h
    · rename_i hg
      intro x hx
      rcases List.mem_cons.mp hx with rfl | hx
      · intro h0
        have := congrArg List.length h0
        simp only [List.length_take, List.length_nil] at this
        omega
      · refine groupsRev_nonempty n _ _ ?_ x hx
        intro h0
        have := congrArg List.length h0
        simp only [List.length_drop, List.length_nil] at this
        omega

/-- All groups but the first have the size `g`, for a locale with groups of `g` digits only. -/
theorem groupsRev_uniform (g : Nat) (hg : 0 < g) (hg' : g < 127) : ∀ (n : Nat) (ds : Str), ds.length ≤ n → ds ≠ [] →
    ∃ last, groupsRev n [g] ds = (groupsRev n [g] ds).dropLast ++ [last] ∧ last.length ≤ g ∧ last ≠ [] ∧
      ∀ x ∈ (groupsRev n [g] ds).dropLast, x.length = g
  | 0, ds, h, hne => absurd (List.length_eq_zero_iff.mp (by omega)) hne
  | n + 1, ds, h, hne => by
    rw [groupsRev]
    split
    · rename_i hc
      exact ⟨ds, by simp, by omega, hne, by simp⟩
    · rename_i hc
      have hl : (ds.drop g).length ≤ n := by rw [List.length_drop]; omega
      have hn : ds.drop g ≠ [] := by
        intro h0
        have := congrArg List.length h0
        simp only [List.length_drop, List.length_nil] at this
        omega
      obtain ⟨last, h1, h2, h3, h4⟩ := groupsRev_uniform g hg hg' n _ hl hn
      rw [if_pos rfl]
      refine ⟨last, ?_, h2, h3, ?_⟩
      · rw [List.dropLast_cons_of_ne_nil (groupsRev_ne_nil _ _ _), List.cons_append, ← h1]
      · rw [List.dropLast_cons_of_ne_nil (groupsRev_ne_nil _ _ _)]
        intro x hx
        rcases List.mem_cons.mp hx with rfl | hx
        · rw [List.length_take]; omega
        · exact h4 x hx

theorem flatten_reverse_map (l : List Str) : ((l.map List.reverse).reverse).flatten = l.flatten.reverse := by
  induction l with
  | nil => rfl
  | cons a l ih => simp [ih]

theorem groups_flatten (p : Punct) (ds : Str) : (p.groups ds).flatten = ds := by
  unfold groups
  rw [flatten_reverse_map, groupsRev_flatten, List.reverse_reverse]

theorem groups_ne_nil (p : Punct) (ds : Str) : p.groups ds ≠ [] := by
  unfold groups
  intro h
  rw [List.reverse_eq_nil_iff, List.map_eq_nil_iff] at h
  exact groupsRev_ne_nil _ _ _ h

theorem groups_nonempty (p : Punct) (ds : Str) (h : ds ≠ []) : ∀ x ∈ p.groups ds, x ≠ [] := by
  intro x hx
  unfold groups at hx
  rw [List.mem_reverse, List.mem_map] at hx
  obtain ⟨y, hy, rfl⟩ := hx
  have := groupsRev_nonempty _ _ _ (by simpa using h) y hy
  simpa using this

theorem groups_mem (p : Punct) (ds : Str) : ∀ x ∈ p.groups ds, ∀ c ∈ x, c ∈ ds := by
  intro x hx c hc
  rw [← groups_flatten p ds]
  exact List.mem_flatten.mpr ⟨x, hx, hc⟩

/-- One group iff the digits are not more than the size of the first group. -/
theorem groups_single (p : Punct) (ds : Str) (hne : ds ≠ []) : (p.groups ds).length = 1 ↔ WholeFor p ds.length := by
  unfold groups WholeFor
  rw [List.length_reverse, List.length_map]
  have hl : ds.length ≠ 0 := by simpa using hne
  obtain ⟨n, hn⟩ : ∃ n, ds.length = n + 1 := ⟨ds.length - 1, by omega⟩
  cases hg : p.grouping with
  | nil => rw [hn]; simp [groupsRev]
  | cons g gs =>
    rw [hn, groupsRev]
    simp only [List.head?_cons, Option.some.injEq, forall_eq', List.length_reverse, hn]
    split
    · rename_i h
      simpa using h
    · rename_i h
      constructor
      · intro hc
        rw [List.length_cons] at hc
        have := List.length_pos_iff.mpr (groupsRev_ne_nil n (if gs = [] then [g] else gs) (ds.reverse.drop g))
        omega
      · exact fun h' => absurd h' h

theorem intercalate_length (sep : Chr) : ∀ l : List Str, ([sep].intercalate l).length = l.flatten.length + (l.length - 1)
  | [] => by simp [List.intercalate]
  | [a] => by simp [List.intercalate]
  | a :: b :: l => by
    have := intercalate_length sep (b :: l)
    simp only [List.intercalate, List.intersperse_cons_cons, List.flatten_cons, List.length_append, List.length_cons,
      List.length_nil] at this ⊢
    omega

theorem intercalate_cons₂ (sep : Chr) (a b : Str) (l : List Str) :
    [sep].intercalate (a :: b :: l) = a ++ sep :: [sep].intercalate (b :: l) := by
  simp [List.intercalate]

theorem intercalate_mem (sep : Chr) : ∀ l : List Str, ∀ c ∈ [sep].intercalate l, c = sep ∨ ∃ x ∈ l, c ∈ x
  | [], c, h => by simp [List.intercalate] at h
  | [a], c, h => by simp [List.intercalate] at h; exact .inr ⟨a, by simp, h⟩
  | a :: b :: l, c, h => by
    rw [intercalate_cons₂] at h
    rcases List.mem_append.mp h with h | h
    · exact .inr ⟨a, by simp, h⟩
    · rcases List.mem_cons.mp h with h | h
      · exact .inl h
      · rcases intercalate_mem sep _ c h with h | ⟨x, hx, h⟩
        · exact .inl h
        · exact .inr ⟨x, by simp only [List.mem_cons] at hx ⊢; exact .inr hx, h⟩

theorem grouped_length (p : Punct) (ds : Str) : (p.grouped ds).length = ds.length + ((p.groups ds).length - 1) := by
  unfold grouped
  rw [intercalate_length, groups_flatten]

theorem grouped_eq_iff (p : Punct) (ds : Str) : p.grouped ds = ds ↔ ds = [] ∨ WholeFor p ds.length := by
  have hpos : 0 < (p.groups ds).length := List.length_pos_iff.mpr (groups_ne_nil p ds)
  constructor
  · intro h
    by_cases hd : ds = []
    · exact .inl hd
    refine .inr ((groups_single p ds hd).mp ?_)
    have := grouped_length p ds
    rw [h] at this
    omega
  · intro h
    have h1 : (p.groups ds).length = 1 := by
      rcases h with rfl | h
      · simp [groups, groupsRev]
      · by_cases hd : ds = []
        · subst hd; simp [groups, groupsRev]
        · exact (groups_single p ds hd).mpr h
    obtain ⟨x, hx⟩ := List.length_eq_one_iff.mp h1
    have hf := groups_flatten p ds
    unfold grouped
    rw [hx] at hf ⊢
    simpa [List.intercalate] using hf

theorem digit_iff (c : Chr) : digit c = true ↔ Digit c := by
  unfold digit Digit
  simp only [decide_eq_true_eq]
  constructor
  · intro h
    simp only [List.mem_cons, List.not_mem_nil, or_false] at h
    rcases h with rfl | rfl | rfl | rfl | rfl | rfl | rfl | rfl | rfl | rfl <;>
      exact ⟨_, by decide, by decide, rfl⟩
  · rintro ⟨b, h1, h2, rfl⟩
    have key : ∀ n < 58, 48 ≤ n → chr (UInt8.ofNat n) ∈ c!"0123456789" := by decide
    have := key b.toNat (by rw [UInt8.le_iff_toNat_le] at h2; exact Nat.lt_succ_of_le h2)
      (by rw [UInt8.le_iff_toNat_le] at h1; exact h1)
    rwa [UInt8.ofNat_toNat] at this

theorem takeWhile_digits {ds t : Str} (hd : ∀ c ∈ ds, Digit c) (ht : ∀ c, t.head? = some c → ¬ Digit c) :
    (ds ++ t).takeWhile digit = ds ∧ (ds ++ t).dropWhile digit = t := by
  induction ds with
  | nil =>
    cases t with
    | nil => simp
    | cons c t =>
      have := ht c rfl
      rw [← digit_iff] at this
      simp [this]
  | cons c ds ih =>
    have h1 := (digit_iff c).mpr (hd c (by simp))
    have := ih fun c hc => hd c (by simp [hc])
    simp [h1, this]

/-- What a number looks like. -/
theorem unsigned_eq (p : Punct) {ds t : Str} (hd : ∀ c ∈ ds, Digit c) (ht : ∀ c, t.head? = some c → ¬ Digit c) :
    p.unsigned (ds ++ t) = p.grouped ds ++ t.map fun c => if c = Chr.ofByte 0x2E then Chr.ofByte p.point else c := by
  unfold unsigned
  rw [(takeWhile_digits hd ht).1, (takeWhile_digits hd ht).2]

theorem not_minus {c : Chr} (h : Digit c) : c ≠ Chr.ofByte 0x2D := by
  rintro rfl
  exact absurd ((digit_chr _).mp h) (by decide)

theorem number_unsigned (p : Punct) {ds t : Str} (hne : ds ≠ []) (hd : ∀ c ∈ ds, Digit c) :
    p.number (ds ++ t) = p.unsigned (ds ++ t) := by
  cases ds with
  | nil => exact absurd rfl hne
  | cons c ds =>
    rw [List.cons_append, number, if_neg (not_minus (hd c (by simp)))]

theorem number_minus (p : Punct) (s : Str) : p.number (Chr.ofByte 0x2D :: s) = Chr.ofByte 0x2D :: p.unsigned s := by
  rw [number, if_pos rfl]

theorem map_point (p : Punct) (t : Str) :
    (t.map fun c => if c = Chr.ofByte 0x2E then Chr.ofByte p.point else c) = t ↔
      p.point = 0x2E ∨ Chr.ofByte 0x2E ∉ t := by
  induction t with
  | nil => simp
  | cons c t ih =>
    rw [List.map_cons, List.cons.injEq, ih, List.mem_cons]
    by_cases hc : c = Chr.ofByte 0x2E
    · subst hc
      rw [if_pos rfl]
      simp only [Chr.ofByte, Chr.mk.injEq, List.cons.injEq, and_true, true_or, not_true, or_false]
      constructor
      · exact fun h => h.1
      · exact fun h => ⟨h, .inl h⟩
    · rw [if_neg hc]
      constructor
      · rintro ⟨-, h | h⟩
        · exact .inl h
        · exact .inr fun h' => h'.elim (fun h' => hc h'.symm) h
      · rintro (h | h)
        · exact ⟨rfl, .inl h⟩
        · exact ⟨rfl, .inr fun h' => h (.inr h')⟩

theorem unsigned_length (p : Punct) (s : Str) : s.length ≤ (p.unsigned s).length := by
  unfold unsigned
  rw [List.length_append, grouped_length, List.length_map]
  have := congrArg List.length (List.takeWhile_append_dropWhile (p := digit) (l := s))
  rw [List.length_append] at this
  omega

theorem number_length (p : Punct) (s : Str) : s.length ≤ (p.number s).length := by
  cases s with
  | nil => simp
  | cons c s =>
    rw [number]
    split
    · have := unsigned_length p s
      simp only [List.length_cons]; omega
    · exact unsigned_length p _

/-- Every character of a number is a byte other than NUL. -/
def Bytes (s : Str) : Prop := ∀ c ∈ s, ∃ b : UInt8, b ≠ 0 ∧ c = Chr.ofByte b

theorem bytes_unsigned {p : Punct} (hp : p.point ≠ 0) (hs : p.sep ≠ 0) {s : Str} (h : Bytes s) : Bytes (p.unsigned s) := by
  intro c hc
  unfold unsigned grouped at hc
  rcases List.mem_append.mp hc with hc | hc
  · rcases intercalate_mem _ _ _ hc with rfl | ⟨x, hx, hc⟩
    · exact ⟨p.sep, hs, rfl⟩
    · exact h c (List.takeWhile_prefix _ |>.subset (groups_mem _ _ x hx c hc))
  · obtain ⟨d, hd, rfl⟩ := List.mem_map.mp hc
    split
    · exact ⟨p.point, hp, rfl⟩
    · exact h d (List.dropWhile_suffix _ |>.subset hd)

theorem bytes_number {p : Punct} (hp : p.point ≠ 0) (hs : p.sep ≠ 0) {s : Str} (h : Bytes s) : Bytes (p.number s) := by
  cases s with
  | nil => exact h
  | cons c s =>
    rw [number]
    have ht : Bytes s := fun d hd => h d (by simp [hd])
    split
    · intro d hd
      rcases List.mem_cons.mp hd with rfl | hd
      · exact h d (by simp)
      · exact bytes_unsigned hp hs ht d hd
    · exact bytes_unsigned hp hs h

theorem bytes_str {s : Str} (h : Bytes s) : s = (Str.str s).map Chr.ofByte := by
  induction s with
  | nil => rfl
  | cons c s ih =>
    obtain ⟨b, hb, rfl⟩ := h c (by simp)
    have := ih fun d hd => h d (by simp [hd])
    have hc : Str.str (Chr.ofByte b :: s) = b :: Str.str s := by
      simp [Str.str, Chr.printed, Chr.ofByte, hb]
    rw [hc, List.map_cons, ← this]

end Punct

/-! ## The output -/

/-- `b` is at least as long as `a` and they are equal iff `C`. -/
def Grow (a b : List UInt8) (C : Prop) : Prop := a.length ≤ b.length ∧ (b = a ↔ C)

theorem Grow.same (a : List UInt8) : Grow a a True := ⟨Nat.le_refl _, by simp⟩

theorem Grow.append {a b a' b' : List UInt8} {C C' : Prop} (h : Grow a b C) (h' : Grow a' b' C') :
    Grow (a ++ a') (b ++ b') (C ∧ C') := by
  refine ⟨by rw [List.length_append, List.length_append]; have := h.1; have := h'.1; omega, ?_⟩
  rw [← h.2, ← h'.2]
  constructor
  · intro he
    have hl := congrArg List.length he
    rw [List.length_append, List.length_append] at hl
    have h1 := h.1
    have h2 := h'.1
    exact List.append_inj he (by omega)
  · rintro ⟨rfl, rfl⟩; rfl

theorem Grow.congr {a b : List UInt8} {C C' : Prop} (h : Grow a b C) (hc : C ↔ C') : Grow a b C' :=
  ⟨h.1, h.2.trans hc⟩

theorem Grow.pre {a b : List UInt8} {C : Prop} (x : List UInt8) (h : Grow a b C) : Grow (x ++ a) (x ++ b) C :=
  ((Grow.same x).append h).congr (by simp)

theorem Grow.post {a b : List UInt8} {C : Prop} (x : List UInt8) (h : Grow a b C) : Grow (a ++ x) (b ++ x) C :=
  (h.append (Grow.same x)).congr (by simp)

section Out

variable {F : Type} {ops : FloatOps F} {number : Str → Str}

/-- The condition on a list of texts of numbers. -/
def Kept (number : Str → Str) (l : List Str) : Prop := ∀ n ∈ l, number n = n

theorem kept_append {l l' : List Str} : Kept number (l ++ l') ↔ Kept number l ∧ Kept number l' := by
  unfold Kept
  simp only [List.mem_append]
  exact ⟨fun h => ⟨fun n hn => h n (.inl hn), fun n hn => h n (.inr hn)⟩,
    fun h n hn => hn.elim (h.1 n) (h.2 n)⟩

mutual

theorem output_grow (hn : ∀ n, (∃ i, n = intChars i) ∨ (∃ f, n = (ops.print f).map Chr.ofByte) →
      Grow (Str.str n) (Str.str (number n)) (number n = n)) (pretty : Bool) (base : Nat) : (indent : Nat) → (j : Json F) →
    Grow (Str.str (output ops pretty base indent j)) (Str.str (outputWith number ops pretty base indent j))
      (Kept number (numbers ops j))
  | indent, .null => (Grow.same _).congr (by simp [Kept, numbers])
  | indent, .bool _ => (Grow.same _).congr (by simp [Kept, numbers])
  | indent, .str _ => (Grow.same _).congr (by simp [Kept, numbers])
  | indent, .int i => (hn _ (.inl ⟨i, rfl⟩)).congr (by simp [Kept, numbers])
  | indent, .float f => (hn _ (.inr ⟨f, rfl⟩)).congr (by simp [Kept, numbers])
  | indent, .arr [] => by rw [output, outputWith]; exact (Grow.same _).congr (by simp [Kept, numbers, itemNumbers])
  | indent, .arr (j :: js) => by
    rw [output, outputWith]
    simp only [Caitlyn.str_append]
    refine Grow.congr (.post _ (.post _ (.pre _ (.post _ (.pre _ (.append
      (.pre _ (output_grow hn pretty base (indent + base) j)) (outputItems_grow hn pretty base indent js))))))) ?_
    rw [numbers, itemNumbers, kept_append]
  | indent, .obj [] => by rw [output, outputWith]; exact (Grow.same _).congr (by simp [Kept, numbers, memberNumbers])
  | indent, .obj ((k, v) :: ms) => by
    rw [output, outputWith]
    simp only [Caitlyn.str_append]
    refine Grow.congr (.post _ (.post _ (.pre _ (.post _ (.pre _ (.append
      (outputMember_grow hn pretty base indent (k, v)) (outputMembers_grow hn pretty base indent ms))))))) ?_
    rw [numbers, memberNumbers, kept_append]

theorem outputMember_grow (hn : ∀ n, (∃ i, n = intChars i) ∨ (∃ f, n = (ops.print f).map Chr.ofByte) →
      Grow (Str.str n) (Str.str (number n)) (number n = n)) (pretty : Bool) (base : Nat) : (indent : Nat) →
    (m : Str × Json F) →
    Grow (Str.str (outputMember ops pretty base indent m)) (Str.str (outputMemberWith number ops pretty base indent m))
      (Kept number (numbers ops m.2))
  | indent, (k, v) => by
    rw [outputMember, outputMemberWith]
    simp only [Caitlyn.str_append]
    exact .pre _ (output_grow hn pretty base (indent + base) v)

theorem outputMembers_grow (hn : ∀ n, (∃ i, n = intChars i) ∨ (∃ f, n = (ops.print f).map Chr.ofByte) →
      Grow (Str.str n) (Str.str (number n)) (number n = n)) (pretty : Bool) (base : Nat) : (indent : Nat) →
    (ms : List (Str × Json F)) →
    Grow (Str.str (outputMembers ops pretty base indent ms))
      (Str.str (outputMembersWith number ops pretty base indent ms)) (Kept number (memberNumbers ops ms))
  | indent, [] => by
    rw [outputMembers, outputMembersWith]; exact (Grow.same _).congr (by simp [Kept, memberNumbers])
  | indent, (k, v) :: ms => by
    rw [outputMembers, outputMembersWith]
    simp only [Caitlyn.str_append]
    refine Grow.congr (.append (.pre _ (outputMember_grow hn pretty base indent (k, v)))
      (outputMembers_grow hn pretty base indent ms)) ?_
    rw [memberNumbers, kept_append]

theorem outputItems_grow (hn : ∀ n, (∃ i, n = intChars i) ∨ (∃ f, n = (ops.print f).map Chr.ofByte) →
      Grow (Str.str n) (Str.str (number n)) (number n = n)) (pretty : Bool) (base : Nat) : (indent : Nat) →
    (js : List (Json F)) →
    Grow (Str.str (outputItems ops pretty base indent js))
      (Str.str (outputItemsWith number ops pretty base indent js)) (Kept number (itemNumbers ops js))
  | indent, [] => by
    rw [outputItems, outputItemsWith]; exact (Grow.same _).congr (by simp [Kept, itemNumbers])
  | indent, j :: js => by
    rw [outputItems, outputItemsWith]
    simp only [Caitlyn.str_append]
    refine Grow.congr (.append (.pre _ (output_grow hn pretty base (indent + base) j))
      (outputItems_grow hn pretty base indent js)) ?_
    rw [itemNumbers, kept_append]

end

end Out

/-! ## Integers -/

/-- The text of an integer: sign and digits. -/
theorem intChars_parts (i : Int) : ∃ ds : Str, ds ≠ [] ∧ (∀ c ∈ ds, Digit c) ∧ natValue ds = i.natAbs ∧
    ds.length = digitCount i ∧ intChars i = (if i < 0 then [Chr.ofByte 0x2D] else []) ++ ds := by
  have hd := BigInt.toDigits_digitChar i.natAbs
  refine ⟨(Nat.toDigits 10 i.natAbs).map BigInt.asc, by simp [Nat.toDigits_ne_nil], ?_, ?_, by simp [digitCount], ?_⟩
  · intro c hc
    obtain ⟨x, hx, rfl⟩ := List.mem_map.mp hc
    exact asc_digit (hd x hx)
  · unfold natValue
    rw [natValue_digits _ hd, Nat.ofDigitChars_ten_toDigits]
  · unfold intChars
    rw [BigInt.toString_chars]
    show List.map BigInt.asc _ = _
    split
    · simp; rfl
    · simp

theorem digit_bytes {ds : Str} (hd : ∀ c ∈ ds, Digit c) : Punct.Bytes ds := by
  intro c hc
  obtain ⟨b, h1, -, rfl⟩ := hd c hc
  refine ⟨b, ?_, rfl⟩
  rintro rfl
  exact absurd h1 (by decide)

theorem intChars_bytes (i : Int) : Punct.Bytes (intChars i) := by
  obtain ⟨ds, -, hd, -, -, h⟩ := intChars_parts i
  rw [h]
  intro c hc
  rcases List.mem_append.mp hc with hc | hc
  · split at hc
    · exact ⟨0x2D, by decide, List.mem_singleton.mp hc⟩
    · cases hc
  · exact digit_bytes hd c hc

theorem number_int (p : Punct) (i : Int) {ds : Str} (hne : ds ≠ []) (hd : ∀ c ∈ ds, Digit c)
    (h : intChars i = (if i < 0 then [Chr.ofByte 0x2D] else []) ++ ds) :
    p.number (intChars i) = (if i < 0 then [Chr.ofByte 0x2D] else []) ++ p.grouped ds := by
  have hu : p.unsigned ds = p.grouped ds := by
    have := p.unsigned_eq (t := []) hd (by simp)
    simpa using this
  rw [h]
  split
  · rw [List.singleton_append, Punct.number_minus, hu]; rfl
  · have := p.number_unsigned (t := []) hne hd
    rw [List.append_nil] at this
    rw [List.nil_append, this, hu]; rfl

theorem natValue_foldl (ds : Str) (n : Nat) :
    ds.foldl (fun n c => 10 * n + ((c.data.headD 0).toNat - 0x30)) n = n * 10 ^ ds.length + natValue ds := by
  unfold natValue
  induction ds generalizing n with
  | nil => simp
  | cons c ds ih =>
    rw [List.foldl_cons, ih, List.foldl_cons, ih (10 * 0 + _), List.length_cons, Nat.pow_succ, Nat.add_mul,
      Nat.mul_zero, Nat.zero_add, Nat.add_assoc]
    congr 1
    rw [Nat.mul_comm 10 n, Nat.mul_assoc, Nat.mul_comm 10]

theorem natValue_app (a b : Str) : natValue (a ++ b) = natValue a * 10 ^ b.length + natValue b := by
  have := natValue_foldl b (natValue a)
  rw [← this]
  unfold natValue
  rw [List.foldl_append]

theorem natValue_lt (ds : Str) (hd : ∀ c ∈ ds, Digit c) : natValue ds < 10 ^ ds.length := by
  induction ds with
  | nil => simp [natValue]
  | cons c ds ih =>
    have h1 := ih fun c hc => hd c (by simp [hc])
    rw [show c :: ds = [c] ++ ds from rfl, natValue_app, List.length_append, Nat.pow_add]
    have h2 : natValue [c] ≤ 9 := by
      obtain ⟨b, h1, h2, rfl⟩ := hd c (by simp)
      rw [UInt8.le_iff_toNat_le] at h1 h2
      have e1 : (0x39 : UInt8).toNat = 57 := rfl
      simp only [natValue, List.foldl_cons, List.foldl_nil, chr, List.headD_cons]
      omega
    have h3 := Nat.mul_le_mul_right (10 ^ ds.length) h2
    simp only [List.length_singleton, Nat.pow_one]
    omega

end Caitlyn
