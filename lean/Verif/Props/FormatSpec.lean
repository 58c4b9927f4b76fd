import Verif.Proofs.FormatSpec
import Verif.Props.Format

/-!
# Property C111: precision and value types in format specifications

`{:[[fill]align][width][.precision][type]}` (String.h:806-973). A value with a decimal point is
`head ++ "." ++ frac ++ tail`, where `frac` are the ASCII digits after the point and `tail` what follows.
-/

namespace Caitlyn
open Caitlyn.Spec Format

/-- The specification the code reads. -/
def FormatSpec.read (s : FormatSpec) : Specifier :=
  { align := s.side, width := s.width.getD 0, fill := s.fill, type := s.type.getD .string,
    precision := (s.precision.map Int.ofNat).getD (-1) }

theorem placeholder_spec (args : List Str) (auto : Nat) (s : FormatSpec) (hne : s.written ≠ []) :
    placeholder args auto (⟨b!":"⟩ :: s.written) =
      if s.width.getD 0 ≥ 2 ^ 64 ∨ s.precision.getD 0 ≥ 2 ^ 31 then .error .outOfRange
      else do
        let v ← vecGet args 0
        let r ← process v (FormatSpec.read s)
        return (Str.str r, auto) := by
  simp only [placeholder, startsWithDigit_colon, bind, Except.bind, Bool.false_eq_true, if_false,
    List.head?_cons, if_true, makeSpecifier_full s hne]
  by_cases h : s.width.getD 0 ≥ 2 ^ 64 ∨ s.precision.getD 0 ≥ 2 ^ 31
  · rw [if_pos h, if_pos h]
  · rw [if_neg h, if_neg h]
    rfl

/-- A specification between two templates. -/
theorem format_spec (args : List Str) (hl : args.length < 2 ^ 63) (hne : args ≠ [])
    (ha : ∀ a ∈ args, ∀ c ∈ a, Shape c.data) (ps qs : List Piece)
    (hp : ∀ p ∈ ps, GoodPiece args p) (hq : ∀ q ∈ qs, GoodPiece args q)
    (hk : args.length = 1 ∨ autos ps + autos qs ≤ args.length)
    (s : FormatSpec) (hs : s.written ≠ []) (hf : s.fill ≠ ⟨b!"}"⟩)
    (hw : s.width.getD 0 < 2 ^ 64) (hpr : s.precision.getD 0 < 2 ^ 31)
    (t : Str) (ht : process (args.getD 0 []) (FormatSpec.read s) = .ok t) (hts : ∀ c ∈ t, Shape c.data) :
    format (ps.flatMap Piece.written ++ (c!"{:" ++ s.written ++ c!"}" ++ qs.flatMap Piece.written)) args =
      .ok (render args 0 ps ++ t ++ render args (autos ps) qs) := by
  obtain ⟨n, h⟩ := format_pieces args hl hne (c!"{:" ++ s.written ++ c!"}" ++ qs.flatMap Piece.written) ps hp
    (hk.imp_right (by omega))
  rw [h]
  clear h
  have h0 : 0 < args.length := List.length_pos_iff.mpr hne
  have hwl := written_length qs
  generalize hm : n + (c!"{:" ++ s.written ++ c!"}" ++ qs.flatMap Piece.written).length = m
  have hm' : (qs.flatMap Piece.written).length < m := by rw [← hm]; simp; omega
  have e : (c!"{:" ++ s.written ++ c!"}" ++ qs.flatMap Piece.written : Str) =
      ⟨b!"{"⟩ :: ((⟨b!":"⟩ :: s.written) ++ ⟨b!"}"⟩ :: qs.flatMap Piece.written) := by simp
  rw [e, loop_hole args m (⟨b!":"⟩ :: s.written) _ _ (by
    intro hmem
    rcases List.mem_cons.mp hmem with e | hmem
    · exact absurd e (by decide)
    · exact written_no_close s hf hmem) (by simp), placeholder_spec _ _ _ hs, if_neg (by omega)]
  have hv : vecGet args 0 = .ok (args.getD 0 []) := by
    unfold vecGet
    rw [List.getElem?_eq_getElem h0, List.getD_eq_getElem?_getD, List.getElem?_eq_getElem h0]; rfl
  simp only [hv, ht, bind, Except.bind, pure, Except.pure]
  have hlp := loop_pieces args hl hne [] (m - qs.length) qs (autos ps)
    (if args.length = 1 then 0 else autos ps) hq (by
      by_cases h1 : args.length = 1
      · exact .inl ⟨h1, by rw [if_pos h1]⟩
      · refine .inr ⟨h1, by rw [if_neg h1], ?_⟩
        rcases hk with h | h
        · contradiction
        · exact h)
  rw [List.append_nil, Nat.sub_add_cancel (by omega)] at hlp
  rw [hlp]
  obtain ⟨j, hj⟩ : ∃ j, m - qs.length = j + 1 := ⟨m - qs.length - 1, by omega⟩
  simp only [hj, loop, bind, Except.bind, pure, Except.pure, List.append_nil]
  rw [← Str.str_append, ← Str.str_append, ← List.append_assoc]
  apply Str.ofStdString_str
  intro c hc
  rcases List.mem_append.mp hc with hc | hc
  · rcases List.mem_append.mp hc with hc | hc
    · exact render_shape args ha ps 0 hp c hc
    · exact hts c hc
  · exact render_shape args ha qs _ hq c hc

theorem fill_shape (s : FormatSpec) (hf : ∀ f a, s.align = some (some f, a) → Shape f.data) :
    Shape s.fill.data := by
  unfold FormatSpec.fill
  match h : s.align with
  | none => exact .one _ (by decide) (by decide)
  | some (none, a) => exact .one _ (by decide) (by decide)
  | some (some f, a) => exact hf f a h

theorem padded_shape (s : FormatSpec) (hf : ∀ f a, s.align = some (some f, a) → Shape f.data) (t : Str)
    (ht : ∀ c ∈ t, Shape c.data) : ∀ c ∈ s.padded t, Shape c.data :=
  pad_shape _ _ _ _ (fill_shape s hf) ht

theorem process_floating (v u : Str) (s : FormatSpec) (ht : s.type = some .floating)
    (hu : floatingText v (FormatSpec.read s) = .ok (Str.str u)) (hus : ∀ c ∈ u, Shape c.data) :
    process v (FormatSpec.read s) = .ok (s.padded u) := by
  have : (FormatSpec.read s).type = .floating := by simp [FormatSpec.read, ht]
  simp only [process, this, processFloating, hu, bind, Except.bind, Str.ofStdString_str u hus,
    processAlignment_pad]
  rfl

theorem places_digits (p : Nat) (frac : Str) (hf : ∀ c ∈ frac, c ∈ digitChrs) :
    ∀ c ∈ places p frac, Shape c.data := by
  intro c hc
  have := List.mem_of_mem_take hc
  rcases List.mem_append.mp this with h | h
  · exact digitChr_shape c (hf c h)
  · rw [List.eq_of_mem_replicate h]; exact .one _ (by decide) (by decide)

/-- A template piece of plain text or `{}`. -/
def Plain (p : Piece) : Prop := p = .auto ∨ ∃ c, p = .text c ∧ Shape c.data

theorem Plain.good {p : Piece} (args : List Str) (h : Plain p) : GoodPiece args p := by
  rcases h with rfl | ⟨c, rfl, hc⟩
  · trivial
  · exact hc

/-- C111. Partial: type `f` and a precision `p ≥ 1` write the number with exactly `p` places, padded to the
width; a point and zeros are added if there are too few digits. Missing: the number is cut, not
rounded (`C111_round_fails`), the rest of the text after the fraction digits is dropped
(`C111_exponent_fails`), and with `p = 0` the point stays (`C111_zero_fails`, exact behaviour in
`C111_no_places`). -/
theorem C111_places_partial (args : List Str) (hl : args.length < 2 ^ 63) (hne : args ≠ [])
    (ha : ∀ a ∈ args, ∀ c ∈ a, Shape c.data) (ps qs : List Piece)
    (hp : ∀ p ∈ ps, Plain p) (hq : ∀ q ∈ qs, Plain q)
    (hk : args.length = 1 ∨ autos ps + autos qs ≤ args.length)
    (s : FormatSpec) (hfs : ∀ f a, s.align = some (some f, a) → Shape f.data ∧ f ≠ ⟨b!"}"⟩)
    (hw : ∀ w, s.width = some w → w < 2 ^ 64) (htype : s.type = some .floating)
    (p : Nat) (hprec : s.precision = some p) (h1 : 1 ≤ p) (hpr : p < 2 ^ 31)
    (head frac tail : Str) (hlen : head.length < npos) (hh : ⟨b!"."⟩ ∉ head)
    (hf : ∀ c ∈ frac, c ∈ digitChrs)
    (ht : ∀ c, tail.head? = some c → ∃ b, c = ⟨[b]⟩ ∧ b < 0x80 ∧ c ∉ digitChrs)
    (hv : args.head? = some (head ++ ⟨b!"."⟩ :: (frac ++ tail)) ∨
      args.head? = some head ∧ frac = []) :
    format (ps.flatMap Piece.written ++ (c!"{:" ++ s.written ++ c!"}" ++ qs.flatMap Piece.written)) args =
      .ok (render args 0 ps ++ s.padded (head ++ c!"." ++ places p frac) ++ render args (autos ps) qs) := by
  have hs : s.written ≠ [] := by
    unfold FormatSpec.written
    rw [htype]; simp [FormatSpec.typePart]
  have hfill : s.fill ≠ ⟨b!"}"⟩ := by
    unfold FormatSpec.fill
    match h : s.align with
    | none => exact (by decide : (⟨b!" "⟩ : Chr) ≠ ⟨b!"}"⟩)
    | some (none, a) => exact (by decide : (⟨b!" "⟩ : Chr) ≠ ⟨b!"}"⟩)
    | some (some f, a) => exact (hfs f a h).2
  have hw' : s.width.getD 0 < 2 ^ 64 := by
    cases h : s.width with
    | none => decide
    | some w => exact hw w h
  have hheads : ∀ c ∈ head, Shape c.data := by
    have hm : ∀ v, args.head? = some v → v ∈ args := fun v h => List.mem_of_head? h
    rcases hv with h | ⟨h, _⟩
    · intro c hc; exact ha _ (hm _ h) c (by simp [hc])
    · intro c hc; exact ha _ (hm _ h) c hc
  have hus : ∀ c ∈ head ++ c!"." ++ places p frac, Shape c.data := by
    intro c hc
    rcases List.mem_append.mp hc with hc | hc
    · rcases List.mem_append.mp hc with hc | hc
      · exact hheads c hc
      · rw [List.mem_singleton.mp hc]; exact .one _ (by decide) (by decide)
    · exact places_digits p frac hf c hc
  refine format_spec args hl hne ha ps qs (fun q h => (hp q h).good args) (fun q h => (hq q h).good args) hk
    s hs hfill hw' (by rw [hprec]; exact hpr) _ ?_ (padded_shape s (fun f a h => (hfs f a h).1) _ hus)
  refine process_floating _ _ s htype ?_ hus
  have hget : ∀ v, args.head? = some v → args.getD 0 [] = v := by
    intro v h
    cases args with
    | nil => cases h
    | cons a r => simpa using h
  rcases hv with h | ⟨h, hnil⟩
  · rw [hget _ h, floatingText_point head frac tail _ s.precision rfl hlen hh hf ht, hprec]
    simp
  · rw [hget _ h, floatingText_whole head _ s.precision rfl hh, hprec, hnil]
    obtain ⟨q, rfl⟩ : ∃ q, p = q + 1 := ⟨p - 1, by omega⟩
    simp

example : format c!"<{:*>8.2f}>" [c!"3.14159"] = .ok c!"<****3.14>" := by decide +kernel

/-- C111, precision 0 or none: the digits after the point are dropped, but the point is kept; a value
without a point is written as it is. -/
theorem C111_no_places (args : List Str) (hl : args.length < 2 ^ 63) (hne : args ≠ [])
    (ha : ∀ a ∈ args, ∀ c ∈ a, Shape c.data) (ps qs : List Piece)
    (hp : ∀ p ∈ ps, Plain p) (hq : ∀ q ∈ qs, Plain q)
    (hk : args.length = 1 ∨ autos ps + autos qs ≤ args.length)
    (s : FormatSpec) (hfs : ∀ f a, s.align = some (some f, a) → Shape f.data ∧ f ≠ ⟨b!"}"⟩)
    (hw : ∀ w, s.width = some w → w < 2 ^ 64) (htype : s.type = some .floating)
    (hprec : s.precision = none ∨ s.precision = some 0)
    (head : Str) (hlen : head.length < npos) (hh : ⟨b!"."⟩ ∉ head) (u : Str)
    (hv : (∃ frac, args.head? = some (head ++ ⟨b!"."⟩ :: frac) ∧ (∀ c ∈ frac, c ∈ digitChrs) ∧
        u = head ++ c!".") ∨ args.head? = some head ∧ u = head) :
    format (ps.flatMap Piece.written ++ (c!"{:" ++ s.written ++ c!"}" ++ qs.flatMap Piece.written)) args =
      .ok (render args 0 ps ++ s.padded u ++ render args (autos ps) qs) := by
  have hs : s.written ≠ [] := by
    unfold FormatSpec.written
    rw [htype]; simp [FormatSpec.typePart]
  have hfill : s.fill ≠ ⟨b!"}"⟩ := by
    unfold FormatSpec.fill
    match h : s.align with
    | none => exact (by decide : (⟨b!" "⟩ : Chr) ≠ ⟨b!"}"⟩)
    | some (none, a) => exact (by decide : (⟨b!" "⟩ : Chr) ≠ ⟨b!"}"⟩)
    | some (some f, a) => exact (hfs f a h).2
  have hw' : s.width.getD 0 < 2 ^ 64 := by
    cases h : s.width with
    | none => decide
    | some w => exact hw w h
  have hp0 : s.precision.getD 0 = 0 := by rcases hprec with h | h <;> rw [h] <;> rfl
  have hus : ∀ c ∈ u, Shape c.data := by
    have hm : ∀ v, args.head? = some v → v ∈ args := fun v h => List.mem_of_head? h
    rcases hv with ⟨frac, h, _, rfl⟩ | ⟨h, rfl⟩
    · intro c hc
      refine ha _ (hm _ h) c ?_
      rcases List.mem_append.mp hc with hc | hc
      · simp [hc]
      · simp [List.mem_singleton.mp hc]
    · intro c hc; exact ha _ (hm _ h) c hc
  refine format_spec args hl hne ha ps qs (fun q h => (hp q h).good args) (fun q h => (hq q h).good args) hk
    s hs hfill hw' (by rw [hp0]; decide) _ ?_ (padded_shape s (fun f a h => (hfs f a h).1) _ hus)
  refine process_floating _ _ s htype ?_ hus
  have hget : ∀ v, args.head? = some v → args.getD 0 [] = v := by
    intro v h
    cases args with
    | nil => cases h
    | cons a r => simpa using h
  rcases hv with ⟨frac, h, hfr, rfl⟩ | ⟨h, rfl⟩
  · have := floatingText_point head frac [] (FormatSpec.read s) s.precision rfl hlen hh hfr (by simp)
    rw [List.append_nil] at this
    rw [hget _ h, this, hp0]
    simp [places]
  · rw [hget _ h, floatingText_whole _ _ s.precision rfl hh, hp0]
    rfl

/-- C111, types `s` and `d` or none: the precision has no effect, the value is padded to the width. -/
theorem C111_other_types (args : List Str) (hl : args.length < 2 ^ 63) (hne : args ≠ [])
    (ha : ∀ a ∈ args, ∀ c ∈ a, Shape c.data) (ps qs : List Piece)
    (hp : ∀ p ∈ ps, Plain p) (hq : ∀ q ∈ qs, Plain q)
    (hk : args.length = 1 ∨ autos ps + autos qs ≤ args.length)
    (s : FormatSpec) (hs : s ≠ {}) (hfs : ∀ f a, s.align = some (some f, a) → Shape f.data ∧ f ≠ ⟨b!"}"⟩)
    (hw : ∀ w, s.width = some w → w < 2 ^ 64) (htype : s.type ≠ some .floating)
    (hpr : ∀ p, s.precision = some p → p < 2 ^ 31) :
    format (ps.flatMap Piece.written ++ (c!"{:" ++ s.written ++ c!"}" ++ qs.flatMap Piece.written)) args =
      .ok (render args 0 ps ++ s.padded (args.headD []) ++ render args (autos ps) qs) := by
  have hs' : s.written ≠ [] := by
    intro h
    apply hs
    simp only [FormatSpec.written, List.append_eq_nil_iff] at h
    obtain ⟨h1, h2, h3, h4⟩ := h
    obtain ⟨a, w, p, t⟩ := s
    have e1 : a = none := by
      match a, h1 with
      | none, _ => rfl
      | some (none, a), h1 => simp [FormatSpec.alignPart] at h1
      | some (some f, a), h1 => simp [FormatSpec.alignPart] at h1
    have e2 : w = none := by
      match w, h2 with
      | none, _ => rfl
      | some w, h2 => simp [FormatSpec.widthPart, decimal_nat, Nat.toDigits_ne_nil] at h2
    have e3 : p = none := by
      match p, h3 with
      | none, _ => rfl
      | some p, h3 => simp [FormatSpec.precisionPart] at h3
    have e4 : t = none := by
      match t, h4 with
      | none, _ => rfl
      | some t, h4 => simp [FormatSpec.typePart] at h4
    rw [e1, e2, e3, e4]
  have hfill : s.fill ≠ ⟨b!"}"⟩ := by
    unfold FormatSpec.fill
    match h : s.align with
    | none => exact (by decide : (⟨b!" "⟩ : Chr) ≠ ⟨b!"}"⟩)
    | some (none, a) => exact (by decide : (⟨b!" "⟩ : Chr) ≠ ⟨b!"}"⟩)
    | some (some f, a) => exact (hfs f a h).2
  have hw' : s.width.getD 0 < 2 ^ 64 := by
    cases h : s.width with
    | none => decide
    | some w => exact hw w h
  have hp' : s.precision.getD 0 < 2 ^ 31 := by
    cases h : s.precision with
    | none => decide
    | some w => exact hpr w h
  have hv : args.getD 0 [] = args.headD [] := by cases args <;> rfl
  refine format_spec args hl hne ha ps qs (fun q h => (hp q h).good args) (fun q h => (hq q h).good args) hk
    s hs' hfill hw' hp' _ ?_ (padded_shape s (fun f a h => (hfs f a h).1) _ (by
      intro c hc
      cases args with
      | nil => cases hc
      | cons a r => exact ha a (by simp) c hc))
  rw [hv]
  have : process (args.headD []) (FormatSpec.read s) = processAlignment (args.headD []) (FormatSpec.read s) := by
    unfold process
    have ht : (FormatSpec.read s).type ≠ .floating := by
      unfold FormatSpec.read
      match h : s.type with
      | none => simp
      | some .string => simp
      | some .integral => simp
      | some .floating => exact absurd h htype
    cases h : (FormatSpec.read s).type with
    | string => rfl
    | integral => rfl
    | floating => exact absurd h ht
  rw [this, processAlignment_pad]
  rfl

example : format c!"{:^7.1d}|" [c!"2.75"] = .ok c!" 2.75  |" := by decide +kernel

/-- C111, numbers too large: a width of `2^64` or more or a precision of `2^31` or more leaves the function
by `std::out_of_range`, not by the library's `FormatError`. -/
theorem C111_too_large_fails (args : List Str) (hl : args.length < 2 ^ 63) (hne : args ≠ []) (ps : List Piece)
    (hp : ∀ p ∈ ps, Plain p) (hk : args.length = 1 ∨ autos ps ≤ args.length) (rest : Str)
    (s : FormatSpec) (hfs : ∀ f a, s.align = some (some f, a) → f ≠ ⟨b!"}"⟩)
    (h : (∃ w, s.width = some w ∧ 2 ^ 64 ≤ w) ∨ ∃ p, s.precision = some p ∧ 2 ^ 31 ≤ p) :
    format (ps.flatMap Piece.written ++ (c!"{:" ++ s.written ++ c!"}" ++ rest)) args = .error .outOfRange := by
  have hs : s.written ≠ [] := by
    unfold FormatSpec.written
    rcases h with ⟨w, h, _⟩ | ⟨p, h, _⟩ <;> rw [h]
    · simp [FormatSpec.widthPart, decimal_nat, Nat.toDigits_ne_nil]
    · simp [FormatSpec.precisionPart]
  have hfill : s.fill ≠ ⟨b!"}"⟩ := by
    unfold FormatSpec.fill
    match h : s.align with
    | none => exact (by decide : (⟨b!" "⟩ : Chr) ≠ ⟨b!"}"⟩)
    | some (none, a) => exact (by decide : (⟨b!" "⟩ : Chr) ≠ ⟨b!"}"⟩)
    | some (some f, a) => exact hfs f a h
  obtain ⟨n, e⟩ := format_pieces args hl hne (c!"{:" ++ s.written ++ c!"}" ++ rest) ps
    (fun q h => (hp q h).good args) hk
  rw [e]
  have e : (c!"{:" ++ s.written ++ c!"}" ++ rest : Str) =
      ⟨b!"{"⟩ :: ((⟨b!":"⟩ :: s.written) ++ ⟨b!"}"⟩ :: rest) := by simp
  rw [e, loop_hole args _ (⟨b!":"⟩ :: s.written) _ _ (by
    intro hmem
    rcases List.mem_cons.mp hmem with e | hmem
    · exact absurd e (by decide)
    · exact written_no_close s hfill hmem) (by simp), placeholder_spec _ _ _ hs, if_pos (by
      rcases h with ⟨w, h, hw⟩ | ⟨p, h, hw⟩
      · left; rw [h]; exact hw
      · right; rw [h]; exact hw)]
  rfl

example : format c!"{:.99999999999f}" [c!"1.5"] = .error .outOfRange := by decide +kernel

/-- C111, the number is cut, not rounded. -/
theorem C111_round_fails : format c!"{:.2f}" [c!"2.999"] = .ok c!"2.99" := by decide +kernel

/-- C111, an exponent is dropped: the result is ten orders of magnitude off. -/
theorem C111_exponent_fails : format c!"{:.2f}" [c!"1.5e10"] = .ok c!"1.50" := by decide +kernel

/-- C111, with precision 0 or without a precision a point is left at the end. -/
theorem C111_zero_fails : format c!"{:.0f}" [c!"3.14"] = .ok c!"3." ∧
    format c!"{:f}" [c!"3.14"] = .ok c!"3." := by decide +kernel

end Caitlyn
