import Verif.Proofs.Locale
import Verif.Props.JsonParse
import Verif.Props.BigFloatDouble
import Verif.Proofs.FormatSpec

/-! # C148: the texts the library writes and reads and the locale of the program -/

namespace Caitlyn
open Spec Json JsonParser

variable {F : Type}

/-- German and Italian: `1.234.567,5`. -/
def Spec.german : Punct := ⟨0x2C, 0x2E, [3]⟩
/-- American: `1,234,567.5`. -/
def Spec.american : Punct := ⟨0x2E, 0x2C, [3]⟩
/-- Indian: `12,34,567.5`. -/
def Spec.indian : Punct := ⟨0x2E, 0x2C, [3, 2]⟩

/-- C148. Which numbers a stream writes as in the classic locale, for a number with the sign, the digits `ds` and the
rest `t` (decimal point, decimals, exponent): iff the digits fit in the first group and the decimal point is the same or
not needed. -/
theorem C148_number_exact (p : Punct) (neg : Bool) (ds t : Str) (hne : ds ≠ []) (hd : ∀ c ∈ ds, Digit c)
    (ht : ∀ c, t.head? = some c → ¬ Digit c) :
    p.number ((if neg then c!"-" else []) ++ ds ++ t) = (if neg then c!"-" else []) ++ ds ++ t ↔
      WholeFor p ds.length ∧ (p.point = 0x2E ∨ chr 0x2E ∉ t) := by
  have hu : p.unsigned (ds ++ t) = ds ++ t ↔ WholeFor p ds.length ∧ (p.point = 0x2E ∨ chr 0x2E ∉ t) := by
    rw [p.unsigned_eq hd ht]
    have h1 := p.grouped_eq_iff ds
    have h2 := p.map_point t
    have hl := p.grouped_length ds
    constructor
    · intro he
      have := congrArg List.length he
      rw [List.length_append, List.length_append, List.length_map] at this
      obtain ⟨e1, e2⟩ := List.append_inj he (by omega)
      exact ⟨(h1.mp e1).resolve_left hne, h2.mp e2⟩
    · rintro ⟨e1, e2⟩
      rw [h1.mpr (.inr e1), h2.mpr e2]
  cases neg
  · simp only [Bool.false_eq_true, if_false, List.nil_append]
    rw [p.number_unsigned hne hd]
    exact hu
  · simp only [if_true, List.append_assoc]
    show p.number (Chr.ofByte 0x2D :: (ds ++ t)) = Chr.ofByte 0x2D :: (ds ++ t) ↔ _
    rw [p.number_minus, List.cons.injEq, hu]
    simp

example : german.number c!"-1234567.5" = c!"-1.234.567,5" ∧ american.number c!"1234567.5" = c!"1,234,567.5" ∧
    indian.number c!"1234567" = c!"12,34,567" ∧ Punct.classic.number c!"1234567.5" = c!"1234567.5" ∧
    german.number c!"1e+06" = c!"1e+06" ∧ german.number c!"123" = c!"123" := by decide

/-- C148 for integers: an integer is written as in the classic locale iff its digits fit in the first group. -/
theorem C148_integer_exact (p : Punct) (i : Int) :
    p.number (intChars i) = intChars i ↔ WholeFor p (digitCount i) := by
  obtain ⟨ds, hne, hd, -, hl, h⟩ := intChars_parts i
  have := C148_number_exact p (decide (i < 0)) ds [] hne hd (by simp)
  simp only [decide_eq_true_eq, List.append_nil, List.not_mem_nil, not_false_eq_true, or_true, and_true] at this
  rw [← hl, ← this, h]
  rfl

example : american.number (intChars (-999)) = intChars (-999) ∧ american.number (intChars 1000) = c!"1,000" ∧
    digitCount (-999) = 3 := by decide

/-- A leaf of the tree. -/
theorem number_grow (p : Punct) (hp : p.point ≠ 0) (hs : p.sep ≠ 0) {n : Str} (h : Punct.Bytes n) :
    Grow (Str.str n) (Str.str (p.number n)) (p.number n = n) := by
  have e1 := Punct.bytes_str h
  have e2 := Punct.bytes_str (Punct.bytes_number hp hs h)
  have hl := p.number_length n
  refine ⟨?_, fun he => ?_, fun he => by rw [he]⟩
  · have l1 := congrArg List.length e1
    have l2 := congrArg List.length e2
    rw [List.length_map] at l1 l2
    omega
  · rw [e2, he, ← e1]

/-- C148 fails, and exactly when: the bytes that `ToString` writes for a JSON value, whatever its options, are those of
the classic locale iff each number in the value is written as in the classic locale. -/
theorem C148_text_fails (p : Punct) (hp : p.point ≠ 0) (hs : p.sep ≠ 0) (ops : FloatOps F)
    (ho : ∀ f, 0 ∉ ops.print f) (pretty : Bool) (base indent : Nat) (j : Json F) :
    Str.str (outputWith p.number ops pretty base indent j) = Str.str (output ops pretty base indent j) ↔
      ∀ n ∈ numbers ops j, p.number n = n := by
  refine (output_grow ?_ pretty base indent j).2
  rintro n (⟨i, rfl⟩ | ⟨f, rfl⟩)
  · exact number_grow p hp hs (intChars_bytes i)
  · refine number_grow p hp hs ?_
    intro c hc
    obtain ⟨b, hb, rfl⟩ := List.mem_map.mp hc
    exact ⟨b, fun h => ho f (h ▸ hb), rfl⟩

example : toStringIn american oneFloat false 0 (.obj [(c!"a", .int 1000), (c!"b", .arr [.int 7, .str c!"1000"])]) =
      .ok c!"{\"a\":1,000,\"b\":[7,\"1000\"]}" ∧
    numbers oneFloat (.obj [(c!"a", .int 1000), (c!"b", .arr [.int 7, .str c!"1000"])]) = [c!"1000", c!"7"] := by
  decide

theorem plain_number (p : Punct) (hp : p.point = 0x2E) (hg : ∀ n, WholeFor p n) (n : Str) : p.number n = n := by
  have hu : ∀ s, p.unsigned s = s := by
    intro s
    unfold Punct.unsigned
    rw [(p.grouped_eq_iff _).mpr (.inr (hg _)), (p.map_point _).mpr (.inl hp), List.takeWhile_append_dropWhile]
  cases n with
  | nil => rfl
  | cons c s =>
    rw [Punct.number]
    split
    · rw [hu]
    · rw [hu]

/-- C148: the classic locale changes no number, whether a stream or `std::to_string` writes it. -/
theorem C148_classic (n : Str) (d : Dbl) : Punct.classic.number n = n ∧ BigFloat.ofDoubleIn Punct.classic d = BigFloat.ofDouble d.text := by
  refine ⟨plain_number _ rfl (fun _ _ h => by cases h) n, ?_⟩
  unfold BigFloat.ofDoubleIn Punct.toStdString
  congr 1
  refine (List.map_congr_left fun b _ => ?_).trans (List.map_id _)
  split
  · rename_i h; exact h.symm
  · rfl

/-- C148. Partial: in a locale that writes no groups and has the decimal point of C, every JSON value and every `double`
is written as in the classic locale. Missing: the other locales (`C148_text_fails` and the theorems after it). -/
theorem C148_partial (p : Punct) (hp : p.point = 0x2E) (hs : p.sep ≠ 0) (hg : ∀ n, WholeFor p n) (ops : FloatOps F)
    (ho : ∀ f, 0 ∉ ops.print f) (pretty : Bool) (indent : Nat) (j : Json F) (d : Dbl) :
    toStringIn p ops pretty indent j = Json.toString ops pretty indent j ∧
    BigFloat.ofDoubleIn p d = BigFloat.ofDouble d.text := by
  constructor
  · unfold toStringIn Json.toString
    congr 1
    refine (C148_text_fails p (by rw [hp]; decide) hs ops ho pretty indent indent j).mpr fun n _ => ?_
    exact plain_number p hp hg n
  · unfold BigFloat.ofDoubleIn Punct.toStdString
    rw [hp]
    congr 1
    refine (List.map_congr_left fun b _ => ?_).trans (List.map_id _)
    split
    · rename_i h; exact h.symm
    · rfl

example : ∀ n, WholeFor Punct.classic n := fun _ _ h => nomatch h
example : ∀ n, WholeFor ⟨0x2E, 0x2C, [127]⟩ n := by
  intro n g h
  cases h
  exact .inr (.inl (Nat.le_refl _))

/-! ## Reading back -/

/-- The groups of an integer: the first has the leading digits. -/
theorem groups_value (p : Punct) {ds x : Str} {xs : List Str} (hne : ds ≠ []) (hd : ∀ c ∈ ds, Digit c)
    (h : p.groups ds = x :: xs) : natValue x = natValue ds / 10 ^ xs.flatten.length ∧
      xs.flatten.length < ds.length ∧ (xs.flatten.length = 0 ↔ WholeFor p ds.length) := by
  have hf := p.groups_flatten ds
  rw [h, List.flatten_cons] at hf
  have hx := p.groups_nonempty ds hne
  rw [h] at hx
  have hxl : x.length ≠ 0 := by simpa using hx x (by simp)
  have hl := congrArg List.length hf
  rw [List.length_append] at hl
  refine ⟨?_, by omega, ?_⟩
  · rw [← hf, natValue_app]
    have hlt := natValue_lt xs.flatten fun c hc => hd c (by rw [← hf]; simp only [List.mem_append]; exact .inr hc)
    rw [Nat.mul_comm, Nat.mul_add_div (by exact Nat.pow_pos (by decide)), Nat.div_eq_of_lt hlt, Nat.add_zero]
  · rw [← p.groups_single ds hne, h, List.length_cons]
    constructor
    · intro h0
      cases xs with
      | nil => rfl
      | cons y ys =>
        have hy : y.length ≠ 0 := by simpa using hx y (by simp)
        rw [List.flatten_cons, List.length_append] at h0
        omega
    · intro h0
      have : xs = [] := List.length_eq_zero_iff.mp (by omega)
      rw [this]; rfl

/-- In a locale with groups of `g` digits, all groups but the first have `g` digits and the first has at most `g`. -/
theorem groups_uniform (p : Punct) {g : Nat} (hp : p.grouping = [g]) (hg : 0 < g) (hg' : g < 127) {ds x : Str}
    {xs : List Str} (hne : ds ≠ []) (h : p.groups ds = x :: xs) :
    0 < x.length ∧ x.length ≤ g ∧ ∀ y ∈ xs, y.length = g := by
  obtain ⟨last, h1, h2, h3, h4⟩ := Punct.groupsRev_uniform g hg hg' ds.length ds.reverse (by simp) (by simpa using hne)
  unfold Punct.groups at h
  rw [hp, h1] at h
  simp only [List.map_append, List.map_cons, List.map_nil, List.reverse_append, List.reverse_cons, List.reverse_nil,
    List.nil_append, List.singleton_append, List.cons.injEq] at h
  obtain ⟨rfl, rfl⟩ := h
  refine ⟨?_, by rwa [List.length_reverse], ?_⟩
  · rw [List.length_reverse]; exact List.length_pos_iff.mpr h3
  · intro y hy
    rw [List.mem_reverse, List.mem_map] at hy
    obtain ⟨z, hz, rfl⟩ := hy
    rw [List.length_reverse]
    exact h4 z hz

theorem flatten_uniform {g : Nat} : ∀ {xs : List Str}, (∀ y ∈ xs, y.length = g) → xs.flatten.length = xs.length * g
  | [], _ => by simp
  | x :: xs, h => by
    rw [List.flatten_cons, List.length_append, h x (by simp), flatten_uniform fun y hy => h y (by simp [hy]),
      List.length_cons, Nat.add_mul, Nat.one_mul, Nat.add_comm]

/-- Sign and leading digits. -/
theorem lead_lit (p : Punct) (i : Int) {ds x : Str} {xs : List Str} (hne : ds ≠ []) (hd : ∀ c ∈ ds, Digit c)
    (hv : natValue ds = i.natAbs) (h : p.groups ds = x :: xs) :
    IntLit ((if i < 0 then [Chr.ofByte 0x2D] else []) ++ x) (i.tdiv (10 ^ xs.flatten.length : Nat)) := by
  obtain ⟨e, -, -⟩ := groups_value p hne hd h
  have hxne : x ≠ [] := p.groups_nonempty ds hne x (by rw [h]; simp)
  have hxd : ∀ c ∈ x, Digit c := fun c hc => hd c (p.groups_mem ds x (by rw [h]; simp) c hc)
  rw [hv] at e
  split
  · rename_i hneg
    have := IntLit.neg x hxne hxd
    rw [e] at this
    have hi : i = -(i.natAbs : Int) := by omega
    rw [hi, Int.neg_tdiv, ← Int.ofNat_tdiv]
    exact this
  · rename_i hneg
    have := IntLit.nonneg x hxne hxd
    rw [e] at this
    have hi : i = (i.natAbs : Int) := by omega
    rw [hi, ← Int.ofNat_tdiv]
    exact this

theorem tdiv_range {i : Int} (h1 : -(2 ^ 63) ≤ i) (h2 : i < 2 ^ 63) (n : Nat) :
    -(2 ^ 63) ≤ i.tdiv n ∧ i.tdiv n < 2 ^ 63 := by
  have : (i.tdiv n).natAbs ≤ i.natAbs := by
    rw [Int.natAbs_tdiv]
    exact Nat.div_le_self _ _
  by_cases h : 0 ≤ i
  · have := Int.tdiv_nonneg (a := i) (b := n) h (Int.natCast_nonneg n)
    omega
  · have h3 := Int.tdiv_nonneg (a := -i) (b := n) (by omega) (Int.natCast_nonneg n)
    rw [Int.neg_tdiv] at h3
    omega

/-- C148 fails in a locale that separates groups by dots, for every integer: what `ToString` writes is read without an
error as the integer cut after the first group; digits are lost iff it has more than one group. With groups of `g` digits, `g * ((digits - 1) / g)` digits are lost. -/
theorem C148_dot_fails (p : Punct) (hs : p.sep = 0x2E) (ops : FloatOps F) (key : Str) (i : Int) (hk : chr 0x22 ∉ key)
    (h1 : -(2 ^ 63) ≤ i) (h2 : i < 2 ^ 63) (hlen : (single key (p.number (intChars i))).length < npos) :
    ∃ k, document ops (single key (p.number (intChars i))) = .ok (.obj [(key, .int (i.tdiv (10 ^ k : Nat)))], .noError) ∧
      k < digitCount i ∧ (k = 0 ↔ WholeFor p (digitCount i)) ∧
      ∀ g, p.grouping = [g] → 0 < g → g < 127 → k = g * ((digitCount i - 1) / g) := by
  obtain ⟨ds, hne, hd, hv, hl, h⟩ := intChars_parts i
  rw [number_int p i hne hd h] at hlen ⊢
  obtain ⟨x, xs, hx⟩ := List.exists_cons_of_ne_nil (p.groups_ne_nil ds)
  obtain ⟨-, e2, e3⟩ := groups_value p hne hd hx
  rw [hl] at e2 e3
  refine ⟨xs.flatten.length, ?_, e2, e3, ?_⟩
  · have hlit := lead_lit p i hne hd hv hx
    have hr := tdiv_range h1 h2 (10 ^ xs.flatten.length)
    have hj : ∀ c ∈ ([Chr.ofByte p.sep].intercalate xs), Digit c ∨ c = chr 0x2E := by
      intro c hc
      rcases Punct.intercalate_mem _ _ _ hc with rfl | ⟨y, hy, hc⟩
      · right; rw [hs]; rfl
      · exact .inl (hd c (p.groups_mem ds y (by rw [hx]; simp [hy]) c hc))
    unfold Punct.grouped at hlen ⊢
    rw [hx] at hlen ⊢
    cases xs with
    | nil =>
      have e : [Chr.ofByte p.sep].intercalate [x] = x := by simp [List.intercalate]
      rw [e] at hlen ⊢
      exact C58_int64 ops key _ _ hk hlen hlit hr.1 hr.2
    | cons y ys =>
      rw [Punct.intercalate_cons₂, ← List.append_assoc] at hlen ⊢
      refine single_int ops key _ _ _ hk hlen hlit hr.1 hr.2 ?_ ?_
      · intro c hc
        rcases List.mem_cons.mp hc with rfl | hc
        · right; rw [hs]; rfl
        · exact hj c hc
      · intro c hc
        cases hc
        rw [hs]
        exact fun h => absurd ((digit_chr _).mp h) (by decide)
  · intro g hg hg0 hg1
    obtain ⟨u1, u2, u3⟩ := groups_uniform p hg hg0 hg1 hne hx
    have hf := congrArg List.length (p.groups_flatten ds)
    rw [hx, List.flatten_cons, List.length_append, flatten_uniform u3, hl] at hf
    rw [flatten_uniform u3, Nat.mul_comm]
    congr 1
    have : digitCount i - 1 = g * xs.length + (x.length - 1) := by rw [Nat.mul_comm]; omega
    rw [this, Nat.mul_add_div hg0, Nat.div_eq_of_lt (by omega), Nat.add_zero]

example : toStringIn german oneFloat false 0 (.obj [(c!"a", .int (-1234567))]) = .ok c!"{\"a\":-1.234.567}" ∧
    document oneFloat c!"{\"a\":-1.234.567}" = .ok (.obj [(c!"a", .int (-1))], .noError) := ⟨by decide +kernel, rfl⟩

/-- The items of an array from the groups of an integer. -/
theorem elements_groups {ops : FloatOps F} : ∀ (lits : List (Str × Int)), lits ≠ [] →
    (∀ l ∈ lits, IntLit l.1 l.2 ∧ -(2 ^ 63) ≤ l.2 ∧ l.2 < 2 ^ 63) → ∀ rest,
    Elements ops false ([chr 0x2C].intercalate (lits.map Prod.fst) ++ chr 0x5D :: rest) (lits.map fun l => .int l.2) rest := by
  have leaf : ∀ (l : Str × Int) (rest : Str), IntLit l.1 l.2 ∧ -(2 ^ 63) ≤ l.2 ∧ l.2 < 2 ^ 63 →
      HeadIs (fun d => ¬ NumChar d) rest → Val ops false (l.1 ++ rest) (.int l.2) rest := by
    rintro ⟨lit, i⟩ rest ⟨h, h1, h2⟩ hr
    obtain ⟨c, t, rfl, hc, ht⟩ := intLit_head h
    have := Number.int (ops := ops) (c :: t) [] i h h1 h2 (by simp) (not_floating_int h (by simp))
    rw [List.append_nil] at this
    exact .number c t _ rest hc ht hr this
  intro lits
  induction lits with
  | nil => intro h; exact absurd rfl h
  | cons l lits ih =>
    intro _ h rest
    cases lits with
    | nil =>
      have e : [chr 0x2C].intercalate (List.map Prod.fst [l]) = l.1 := by simp [List.intercalate]
      rw [e]
      exact .last [] _ _ _ spaces_nil (leaf l _ (h l (by simp)) (headIs_follow (.inr (.inl rfl)) spaces_nil rest))
    | cons l' lits =>
      have := ih (by simp) (fun x hx => h x (by simp only [List.mem_cons] at hx ⊢; exact .inr hx)) rest
      rw [List.map_cons, List.map_cons, Punct.intercalate_cons₂, ← List.map_cons, List.append_assoc, List.cons_append,
        List.map_cons]
      refine .more [] [] _ _ _ _ _ spaces_nil spaces_nil ?_ this
      exact leaf l _ (h l (by simp)) (headIs_follow (.inr (.inr rfl)) spaces_nil _)

theorem natValue_le_app (a x b : Str) : natValue x ≤ natValue (a ++ (x ++ b)) := by
  rw [natValue_app, natValue_app]
  have h1 : natValue x ≤ natValue x * 10 ^ b.length := Nat.le_mul_of_pos_right _ (Nat.pow_pos (by decide))
  omega

theorem natValue_part : ∀ {xs : List Str} {x : Str}, x ∈ xs → natValue x ≤ natValue xs.flatten
  | y :: ys, x, h => by
    rw [List.flatten_cons]
    rcases List.mem_cons.mp h with rfl | h
    · exact natValue_le_app [] x _
    · rw [natValue_app]
      have := natValue_part h
      omega

theorem natValue_groups {g : Nat} : ∀ {xs : List Str}, (∀ y ∈ xs, y.length = g) → ∀ x : Str,
    natValue (x ++ xs.flatten) = (xs.map natValue).foldl (fun a n => a * 10 ^ g + n) (natValue x)
  | [], _, x => by simp
  | y :: ys, h, x => by
    rw [List.flatten_cons, ← List.append_assoc, natValue_groups fun z hz => h z (by simp [hz]), natValue_app,
      h y (by simp)]
    rfl

/-- C148 fails in a locale that separates groups by commas, for every integer in an array: what `ToString` writes is
read without an error as one integer for each group: the number cut at its first group, and the other groups as
non-negative integers, of which there are none iff the number has one group. With groups of `g` digits they are the
digits of the number in base `10^g`. -/
theorem C148_comma_fails (p : Punct) (hs : p.sep = 0x2C) (ops : FloatOps F) (key : Str) (i : Int) (hk : chr 0x22 ∉ key)
    (h1 : -(2 ^ 63) ≤ i) (h2 : i < 2 ^ 63)
    (hlen : (single key (c!"[" ++ p.number (intChars i) ++ c!"]")).length < npos) :
    ∃ (v : Int) (vs : List Nat), document ops (single key (c!"[" ++ p.number (intChars i) ++ c!"]")) =
        .ok (.obj [(key, .arr (.int v :: vs.map fun n : Nat => .int n))], .noError) ∧
      (vs = [] ↔ WholeFor p (digitCount i)) ∧
      ∀ g, p.grouping = [g] → 0 < g → g < 127 → v = i.tdiv (10 ^ (g * vs.length) : Nat) ∧
        vs.length = (digitCount i - 1) / g ∧ (∀ n ∈ vs, n < 10 ^ g) ∧
        i.natAbs = vs.foldl (fun a n => a * 10 ^ g + n) v.natAbs := by
  obtain ⟨ds, hne, hd, hv, hl, h⟩ := intChars_parts i
  rw [number_int p i hne hd h] at hlen ⊢
  obtain ⟨x, xs, hx⟩ := List.exists_cons_of_ne_nil (p.groups_ne_nil ds)
  obtain ⟨e1, e2, e3⟩ := groups_value p hne hd hx
  have hf := p.groups_flatten ds
  rw [hx, List.flatten_cons] at hf
  have hxsd : ∀ y ∈ xs, ∀ c ∈ y, Digit c := fun y hy c hc => hd c (p.groups_mem ds y (by rw [hx]; simp [hy]) c hc)
  have hxsne : ∀ y ∈ xs, y ≠ [] := fun y hy => p.groups_nonempty ds hne y (by rw [hx]; simp [hy])
  refine ⟨i.tdiv (10 ^ xs.flatten.length : Nat), xs.map natValue, ?_, ?_, ?_⟩
  · have hlit := lead_lit p i hne hd hv hx
    have hr := tdiv_range h1 h2 (10 ^ xs.flatten.length)
    refine C56_non_ascii_partial ops _ hlen _ (single_document hk ?_)
    have hel := elements_groups (ops := ops)
      (((if i < 0 then [Chr.ofByte 0x2D] else []) ++ x, i.tdiv (10 ^ xs.flatten.length : Nat)) ::
        xs.map fun y => (y, (natValue y : Int))) (by simp) ?_ [chr 0x7D]
    · have := Val.array (ops := ops) (lits := false) [] _ _ _ spaces_nil hel
      unfold Punct.grouped
      rw [hx, hs]
      have e : ∀ s : Str, [chr 0x2C].intercalate ((s ++ x) :: xs) = s ++ [chr 0x2C].intercalate (x :: xs) := by
        intro s
        cases xs with
        | nil => simp [List.intercalate]
        | cons y ys => rw [Punct.intercalate_cons₂, Punct.intercalate_cons₂, List.append_assoc]
      simp only [List.map_cons, List.map_map, Function.comp_def, List.map_id', e] at this
      rw [List.map_map]
      simpa [chr, Chr.ofByte, Function.comp_def] using this
    · intro l hm
      rcases List.mem_cons.mp hm with rfl | hm
      · exact ⟨hlit, hr.1, hr.2⟩
      · obtain ⟨y, hy, rfl⟩ := List.mem_map.mp hm
        refine ⟨.nonneg y (hxsne y hy) (hxsd y hy), by omega, ?_⟩
        have e4 := natValue_part hy
        have hdc : digitCount i ≤ 19 := by
          unfold digitCount
          rw [BigFloat.toDigits_length, Nat.max_le, BigFloat.width_le]
          omega
        have hyl : y.length ≤ xs.flatten.length := by
          obtain ⟨a, b, rfl⟩ := List.append_of_mem hy
          simp only [List.flatten_append, List.flatten_cons, List.length_append]
          omega
        have e5 := natValue_lt y (hxsd y hy)
        have e6 : 10 ^ y.length ≤ 10 ^ 18 := Nat.pow_le_pow_right (by decide) (by omega)
        show (natValue y : Int) < 2 ^ 63
        omega
  · rw [List.map_eq_nil_iff, ← hl, ← e3]
    constructor
    · rintro rfl; rfl
    · intro h0
      cases xs with
      | nil => rfl
      | cons y ys =>
        have hy : y.length ≠ 0 := by simpa using hxsne y (by simp)
        rw [List.flatten_cons, List.length_append] at h0
        omega
  · intro g hg hg0 hg1
    obtain ⟨u1, u2, u3⟩ := groups_uniform p hg hg0 hg1 hne hx
    have hfl := congrArg List.length hf
    rw [List.length_append, flatten_uniform u3, hl] at hfl
    refine ⟨?_, ?_, ?_, ?_⟩
    · rw [flatten_uniform u3, List.length_map, Nat.mul_comm]
    · have : digitCount i - 1 = g * xs.length + (x.length - 1) := by rw [Nat.mul_comm]; omega
      rw [List.length_map, this, Nat.mul_add_div hg0, Nat.div_eq_of_lt (by omega), Nat.add_zero]
    · intro n hn
      obtain ⟨y, hy, rfl⟩ := List.mem_map.mp hn
      have := natValue_lt y (hxsd y hy)
      rwa [u3 y hy] at this
    · have := natValue_groups u3 x
      rw [hf] at this
      rw [Int.natAbs_tdiv, Int.natAbs_natCast, ← hv]
      rw [e1] at this
      exact this

example : toStringIn american oneFloat false 0 (.obj [(c!"a", .arr [.int (-1050007)])]) = .ok c!"{\"a\":[-1,050,007]}" ∧
    document oneFloat c!"{\"a\":[-1,050,007]}" = .ok (.obj [(c!"a", .arr [.int (-1), .int 50, .int 7])], .noError) ∧
    ∃ e, document oneFloat c!"{\"a\":1,000}" = .ok (.null, e) ∧ e ≠ .noError :=
  ⟨by decide +kernel, rfl, _, rfl, by decide⟩

/-! ## `double` -/

/-- The text of a finite `double` in a locale with another decimal point: ASCII, without a dot. -/
theorem text_in (p : Punct) (h0 : p.point ≠ 0) (h1 : p.point ≤ 0x7F) (h2 : p.point ≠ 0x2E) (neg : Bool) (m : Nat)
    (e : Int) : ∃ (ds ds' : List Char), ds ≠ [] ∧ (∀ c ∈ ds, BigInt.DigitChar c) ∧ (∀ c ∈ ds', BigInt.DigitChar c) ∧
      Str.ofStdString (p.toStdString (Dbl.text (.finite neg m e))) =
        .ok ((if neg then [Chr.ofByte 0x2D] else []) ++ ds.map BigInt.asc ++ Chr.ofByte p.point :: ds'.map BigInt.asc) ∧
      Chr.ofByte 0x2E ∉
        (if neg then [Chr.ofByte 0x2D] else []) ++ ds.map BigInt.asc ++ Chr.ofByte p.point :: ds'.map BigInt.asc := by
  obtain ⟨_, hp, _⟩ := padded_spec 6 (Dbl.millionths m e % 1000000) (Nat.mod_lt _ (by decide))
  have hq := BigInt.toDigits_digitChar (Dbl.millionths m e / 1000000)
  have key : ∀ c : Char, BigInt.DigitChar c → UInt8.ofNat c.toNat ≠ 0 ∧ UInt8.ofNat c.toNat ≤ 0x7F ∧
      UInt8.ofNat c.toNat ≠ 0x2E := by
    have key : ∀ n < 58, 48 ≤ n → UInt8.ofNat n ≠ 0 ∧ UInt8.ofNat n ≤ 0x7F ∧ UInt8.ofNat n ≠ 0x2E := by decide +kernel
    intro c h
    exact key _ (by unfold BigInt.DigitChar at h; omega) (by unfold BigInt.DigitChar at h; omega)
  have hmap : ∀ l : List Char, (∀ c ∈ l, BigInt.DigitChar c) →
      (l.map fun c => if UInt8.ofNat c.toNat = 0x2E then p.point else UInt8.ofNat c.toNat) =
        l.map fun c => UInt8.ofNat c.toNat := by
    intro l hl
    refine List.map_congr_left fun c hc => ?_
    rw [if_neg (key c (hl c hc)).2.2]
  have ht : p.toStdString (Dbl.text (.finite neg m e)) = (if neg then [0x2D] else []) ++
      ((Nat.toDigits 10 (Dbl.millionths m e / 1000000)).map fun c => UInt8.ofNat c.toNat) ++
      p.point :: ((Dbl.padded 6 (Dbl.millionths m e % 1000000)).map fun c => UInt8.ofNat c.toNat) := by
    unfold Punct.toStdString Dbl.text Dbl.toChars
    simp only [List.map_map, List.map_append, List.map_cons, Function.comp_def]
    rw [hmap _ hq, hmap _ hp]
    cases neg <;> rfl
  refine ⟨_, _, Nat.toDigits_ne_nil, hq, hp, ?_, ?_⟩
  · rw [ht, Str.ofStdString_ascii]
    · simp only [List.map_append, List.map_cons, List.map_map]
      cases neg <;> rfl
    · intro b hb
      rcases List.mem_append.mp hb with hb | hb
      · rcases List.mem_append.mp hb with hb | hb
        · cases neg
          · cases hb
          · rw [List.mem_singleton.mp hb]; decide
        · obtain ⟨c, hc, rfl⟩ := List.mem_map.mp hb
          exact ⟨(key c (hq c hc)).1, (key c (hq c hc)).2.1⟩
      · rcases List.mem_cons.mp hb with rfl | hb
        · exact ⟨h0, h1⟩
        · obtain ⟨c, hc, rfl⟩ := List.mem_map.mp hb
          exact ⟨(key c (hp c hc)).1, (key c (hp c hc)).2.1⟩
  · have hb : ∀ {b : UInt8}, b ≠ 0x2E → Chr.ofByte 0x2E ≠ Chr.ofByte b := by
      intro b hb h
      simp only [Chr.ofByte, Chr.mk.injEq, List.cons.injEq, and_true] at h
      exact hb h.symm
    intro hm
    rcases List.mem_append.mp hm with hm | hm
    · rcases List.mem_append.mp hm with hm | hm
      · cases neg
        · cases hm
        · exact hb (by decide) (List.mem_singleton.mp hm)
      · obtain ⟨c, hc, h⟩ := List.mem_map.mp hm
        exact hb (key c (hq c hc)).2.2 h.symm
    · rcases List.mem_cons.mp hm with hm | hm
      · exact hb h2 hm
      · obtain ⟨c, hc, h⟩ := List.mem_map.mp hm
        exact hb (key c (hp c hc)).2.2 h.symm

/-- C148 fails for `BigFloat(double)`: in a locale whose decimal point is another character of ASCII that is not a
digit, it throws `invalid_argument` for every finite `double`. -/
theorem C148_double_fails (p : Punct) (h0 : p.point ≠ 0) (h1 : p.point ≤ 0x7F) (h2 : p.point ≠ 0x2E)
    (h3 : CharUtil.isDigit p.point.toNat = false) (neg : Bool) (m : Nat) (e : Int) :
    BigFloat.ofDoubleIn p (.finite neg m e) = .error .invalidArgument := by
  obtain ⟨ds, ds', hne, hd, hd', ht, hdot⟩ := text_in p h0 h1 h2 neg m e
  have hcp : ∀ b : UInt8, b ≤ 0x7F → Chr.getCodePoint (Chr.ofByte b) = .ok b.toNat := by
    have key : ∀ n < 128, Chr.getCodePoint (Chr.ofByte (UInt8.ofNat n)) = .ok n := by decide +kernel
    intro b hb
    have := key b.toNat (by rw [UInt8.le_iff_toNat_le] at hb; exact Nat.lt_succ_of_le hb)
    rwa [UInt8.ofNat_toNat] at this
  have hasc : ∀ c : Char, BigInt.DigitChar c → ∃ b : UInt8, b ≤ 0x7F ∧ b ≠ 0x2D ∧ b ≠ 0x2B ∧ BigInt.asc c = Chr.ofByte b := by
    intro c hc
    have key : ∀ n < 58, 48 ≤ n → UInt8.ofNat n ≤ 0x7F ∧ UInt8.ofNat n ≠ 0x2D ∧ UInt8.ofNat n ≠ 0x2B := by
      decide +kernel
    obtain ⟨k1, k2, k3⟩ := key c.toNat (by unfold BigInt.DigitChar at hc; omega) (by unfold BigInt.DigitChar at hc; omega)
    exact ⟨_, k1, k2, k3, rfl⟩
  unfold BigFloat.ofDoubleIn BigFloat.ofDouble
  rw [ht]
  simp only [bind, Except.bind]
  obtain ⟨s, hs⟩ : ∃ s, s = (if neg then [Chr.ofByte 0x2D] else []) ++ ds.map BigInt.asc ++
      Chr.ofByte p.point :: ds'.map BigInt.asc := ⟨_, rfl⟩
  rw [← hs] at hdot ⊢
  unfold BigFloat.parse
  rw [if_neg (by rw [hs]; simp)]
  rw [Format.find_no_dot s hdot]
  simp only [bind, Except.bind, if_true]
  rw [(C37_rejects_partial s ?_).1 (.inr ⟨Chr.ofByte p.point, ?_, _, hcp _ h1, h3⟩)]
  · intro c hc
    rw [hs] at hc
    rcases List.mem_append.mp hc with hc | hc
    · rcases List.mem_append.mp hc with hc | hc
      · cases neg
        · cases hc
        · rw [List.mem_singleton.mp hc]; exact ⟨_, hcp _ (by decide)⟩
      · obtain ⟨x, hx, rfl⟩ := List.mem_map.mp hc
        obtain ⟨b, k1, -, -, k4⟩ := hasc x (hd x hx)
        rw [k4]; exact ⟨_, hcp _ k1⟩
    · rcases List.mem_cons.mp hc with rfl | hc
      · exact ⟨_, hcp _ h1⟩
      · obtain ⟨x, hx, rfl⟩ := List.mem_map.mp hc
        obtain ⟨b, k1, -, -, k4⟩ := hasc x (hd' x hx)
        rw [k4]; exact ⟨_, hcp _ k1⟩
  · rw [hs]
    cases ds with
    | nil => exact absurd rfl hne
    | cons x ds =>
      cases neg
      · obtain ⟨b, -, k2, k3, k4⟩ := hasc x (hd x (by simp))
        simp only [Bool.false_eq_true, if_false, List.nil_append, List.map_cons, List.cons_append, unsignedPart]
        rw [if_neg]
        · simp
        · rw [k4]
          simp only [Chr.ofByte, Chr.mk.injEq, List.cons.injEq, and_true]
          exact fun h => h.elim k2 k3
      · simp only [if_true, List.cons_append, List.nil_append, unsignedPart]
        rw [if_pos (.inl rfl)]
        simp

example : BigFloat.ofDoubleIn german (.finite false 3 (-1)) = .error .invalidArgument ∧
    (BigFloat.ofDoubleIn american (.finite false 3 (-1))).toBool = true := by decide +kernel

/-- C148 fails for `String::Format`: in a locale whose decimal point is another character of ASCII, a precision does not
shorten a `double` but adds a dot and as many zeros, for every finite `double` and every precision. -/
theorem C148_format_fails (p : Punct) (h0 : p.point ≠ 0) (h1 : p.point ≤ 0x7F) (h2 : p.point ≠ 0x2E) (neg : Bool)
    (m : Nat) (e : Int) (spec : Format.Specifier) (n : Nat) (hn : spec.precision = n + 1) :
    ∃ s, Str.ofStdString (p.toStdString (Dbl.text (.finite neg m e))) = .ok s ∧
      Format.floatingText s spec = .ok (Str.str s ++ b!"." ++ List.replicate (n + 1) 0x30) := by
  obtain ⟨ds, ds', -, -, -, ht, hdot⟩ := text_in p h0 h1 h2 neg m e
  refine ⟨_, ht, ?_⟩
  unfold Format.floatingText
  simp only [Format.find_no_dot _ hdot, bind, Except.bind]
  rw [if_neg (by simp), if_pos (by omega)]
  rw [hn]
  rfl

example : (Str.ofStdString (german.toStdString (Dbl.text (.finite false 3 (-1)))) >>= fun s =>
      Format.floatingText s { precision := 2 }) = .ok b!"1,500000.00" ∧
    (Str.ofStdString (american.toStdString (Dbl.text (.finite false 3 (-1)))) >>= fun s =>
      Format.floatingText s { precision := 2 }) = .ok b!"1.50" := by decide +kernel

end Caitlyn
