import Verif.Spec.Format
import Verif.Proofs.StdNum
import Verif.Proofs.Search

/-! # Helper lemmas on `String::Format` -/

namespace Caitlyn.Format
open Caitlyn.Spec BigInt

theorem alignOf_some (c : Chr) (a : Alignment) : alignOf c = some a ↔ c = sideChar a := by
  unfold alignOf
  constructor
  · intro h
    split at h
    · injection h with h; subst h; assumption
    · split at h
      · injection h with h; subst h; assumption
      · split at h
        · injection h with h; subst h; assumption
        · cases h
  · rintro rfl; cases a <;> decide

theorem alignOf_digit (c : Char) (h : DigitChar c) : alignOf (asc c) = none := by
  cases e : alignOf (asc c) with
  | none => rfl
  | some a =>
    have := (alignOf_some _ _).mp e
    have key : ∀ n < 58, 48 ≤ n → ∀ a : Fin 3, Chr.ofByte (UInt8.ofNat n) ≠
        [sideChar .left, sideChar .right, sideChar .center][a] := by decide
    have k := key c.toNat (by have := h.2; omega) h.1
    cases a
    · exact absurd this (k 0)
    · exact absurd this (k 1)
    · exact absurd this (k 2)

/-! ### Digits -/

theorem spanDigits_digits (cs : List Char) (h : ∀ c ∈ cs, DigitChar c) (tail : Str)
    (ht : ∀ c, tail.head? = some c → ∃ cp, c.getCodePoint = .ok cp ∧ CharUtil.isDigit cp = false) :
    spanDigits (cs.map asc ++ tail) = .ok (cs.map asc, tail) := by
  induction cs with
  | nil =>
    cases tail with
    | nil => rfl
    | cons c t =>
      obtain ⟨cp, h1, h2⟩ := ht c rfl
      simp [spanDigits, h1, h2, bind, Except.bind, pure, Except.pure]
  | cons c cs ih =>
    have hc := h c (by simp)
    simp only [List.map_cons, List.cons_append, spanDigits]
    rw [asc_codePoint c (by have := hc.2; omega)]
    simp only [bind, Except.bind]
    rw [if_pos (isDigit_ascii _ hc), ih (fun d hd => h d (by simp [hd]))]
    rfl

theorem startsWithDigit_digits (cs : List Char) (hne : cs ≠ []) (h : ∀ c ∈ cs, DigitChar c) (tail : Str) :
    startsWithDigit (cs.map asc ++ tail) = .ok true := by
  cases cs with
  | nil => exact absurd rfl hne
  | cons c cs =>
    have hc := h c (by simp)
    simp only [List.map_cons, List.cons_append, startsWithDigit]
    rw [asc_codePoint c (by have := hc.2; omega)]
    simp only [bind, Except.bind, isDigit_ascii _ hc]
    rfl

/-! ### The loop on template pieces -/

theorem search_close (body rest : Str) (h : ⟨b!"}"⟩ ∉ body) :
    Str.search (body ++ ⟨b!"}"⟩ :: rest) c!"}" = body.length := by
  induction body with
  | nil => simp [Str.search, List.isPrefixOf]
  | cons c body ih =>
    rw [List.cons_append, Str.search]
    have : ¬ (⟨b!"}"⟩ : Chr) = c := fun e => h (by rw [← e]; simp)
    simp only [List.isPrefixOf, Bool.and_eq_true, beq_iff_eq, this, false_and, if_false]
    rw [ih (fun hm => h (by simp [hm]))]
    rfl

theorem search_open (rest : Str) (h : ⟨b!"}"⟩ ∉ rest) : Str.search rest c!"}" = rest.length := by
  apply Str.search_none
  rw [occurs_iff_infix]
  rintro ⟨a, b, e⟩
  apply h
  rw [← e]; simp

/-- A placeholder. -/
theorem loop_hole (args : List Str) (n : Nat) (body rest : Str) (auto : Nat) (h : ⟨b!"}"⟩ ∉ body)
    (h0 : body.head? ≠ some ⟨b!"{"⟩) :
    loop args (n + 1) (⟨b!"{"⟩ :: (body ++ ⟨b!"}"⟩ :: rest)) auto =
      (do
        let (bytes, auto') ← placeholder args auto body
        let out ← loop args n rest auto'
        return bytes ++ out) := by
  have hs : Str.search (⟨b!"{"⟩ :: (body ++ ⟨b!"}"⟩ :: rest)) c!"}" = body.length + 1 := by
    rw [← List.cons_append, search_close _ _ (by
      intro hm
      rcases List.mem_cons.mp hm with e | hm
      · exact absurd e (by decide)
      · exact h hm), List.length_cons]
  have hh : (body ++ ⟨b!"}"⟩ :: rest).head? ≠ some ⟨b!"{"⟩ := by
    cases body with
    | nil => rw [List.nil_append, List.head?_cons]; decide
    | cons c b => exact h0
  rw [loop, if_pos rfl, if_neg hh]
  simp only [hs]
  rw [if_neg (by simp)]
  have hsub : Str.substring (⟨b!"{"⟩ :: (body ++ ⟨b!"}"⟩ :: rest)) 1 (body.length + 1 - 1) = .ok body := by
    unfold Str.substring
    rw [if_neg (by simp)]
    simp
  rw [hsub]
  simp only [bind, Except.bind]
  rw [List.drop_succ_cons, show body.length + 1 = (body ++ [(⟨b!"}"⟩ : Chr)]).length by simp,
    show body ++ ⟨b!"}"⟩ :: rest = (body ++ [(⟨b!"}"⟩ : Chr)]) ++ rest by simp, List.drop_left]

theorem loop_text (args : List Str) (n : Nat) (c : Chr) (rest : Str) (auto : Nat) :
    loop args (n + 1) ((Piece.text c).written ++ rest) auto =
      (do
        let out ← loop args n rest auto
        return c.printed ++ out) := by
  simp only [Piece.written]
  by_cases h1 : c = ⟨b!"{"⟩
  · subst h1; rfl
  · by_cases h2 : c = ⟨b!"}"⟩
    · subst h2; rfl
    · rw [if_neg (by simp [h1, h2])]
      simp only [List.cons_append, List.nil_append]
      rw [loop, if_neg h1, if_neg h2]

/-! ### Placeholders -/

theorem placeholder_auto (args : List Str) (auto : Nat) :
    placeholder args auto [] =
      if args.length = 1 then (vecGet args 0).map fun a => (Str.str a, auto)
      else if args.length > 1 then (vecGet args auto).map fun a => (Str.str a, auto + 1)
      else .error .formatError := by
  simp only [placeholder, startsWithDigit, bind, Except.bind, Bool.false_eq_true, if_false]
  rw [if_neg (show ¬ ([] : Str).head? = some ⟨b!":"⟩ by simp)]
  split
  · cases vecGet args 0 <;> rfl
  · split
    · cases vecGet args auto <;> rfl
    · rfl

theorem argIndex_decimal (i : Nat) :
    argIndex ((Nat.toDigits 10 i).map asc) = if i ≥ 2 ^ 64 then .error .formatError else .ok i := by
  unfold argIndex
  rw [str_digits _ (toDigits_digitChar i)]
  have := StdNum.stoul_digits i [] (by simp)
  rw [List.append_nil] at this
  rw [this]
  by_cases hi : i ≥ 2 ^ 64
  · rw [if_pos hi, if_pos hi]
  · rw [if_neg hi, if_neg hi]

theorem placeholder_index (args : List Str) (auto i : Nat) :
    placeholder args auto (decimal i) =
      if i ≥ 2 ^ 64 ∨ i > wsub args.length 1 then .error .formatError
      else (vecGet args i).map fun a => (Str.str a, auto) := by
  rw [decimal_nat]
  have h1 := startsWithDigit_digits _ Nat.toDigits_ne_nil (toDigits_digitChar i) []
  have h2 := spanDigits_digits _ (toDigits_digitChar i) [] (by simp)
  rw [List.append_nil] at h1 h2
  simp only [placeholder, h1, h2, bind, Except.bind, if_true, argIndex_decimal]
  by_cases hi : i ≥ 2 ^ 64
  · rw [if_pos hi, if_pos (.inl hi)]
  · rw [if_neg hi]
    simp only []
    by_cases hw : i > wsub args.length 1
    · rw [if_pos hw, if_pos (.inr hw)]
    · rw [if_neg hw, if_neg (by simp [hi, hw])]
      cases vecGet args i <;> rfl

/-! ### Alignment specifications -/

theorem processAlignment_pad (value : Str) (spec : Specifier) :
    processAlignment value spec = .ok (pad spec.fill spec.align spec.width value) := by
  unfold processAlignment pad
  by_cases h : value.length ≥ spec.width
  · rw [if_pos h]
    have : spec.width - value.length = 0 := by omega
    simp only [this]
    cases spec.align <;> simp
  · rw [if_neg h]
    cases spec.align with
    | left => rfl
    | right => simp [Str.insertCount]
    | center => simp [Str.insertCount, Str.appendCount, bind, Except.bind, pure, Except.pure]

theorem makeSpecifier_align (fill : Option Chr) (a : Alignment) (w : Nat) (hw : w < 2 ^ 64) :
    makeSpecifier (⟨b!":"⟩ :: alignText fill a w) =
      .ok { align := a, width := w, fill := fill.getD ⟨b!" "⟩ } := by
  obtain ⟨d, ds, hd⟩ : ∃ d ds, Nat.toDigits 10 w = d :: ds := by
    cases h : Nat.toDigits 10 w with
    | nil => exact absurd h Nat.toDigits_ne_nil
    | cons d ds => exact ⟨d, ds, rfl⟩
  have hdc := toDigits_digitChar w
  have hpa : parseAlignment {} (alignText fill a w) =
      .ok ({ align := a, fill := fill.getD ⟨b!" "⟩ }, decimal w) := by
    rw [decimal_nat]
    unfold alignText
    rw [decimal_nat, hd]
    cases fill with
    | none =>
      simp only [Option.toList, List.nil_append, List.cons_append, List.map_cons, parseAlignment]
      rw [alignOf_digit d (hdc d (by rw [hd]; simp)), (alignOf_some _ a).mpr rfl]
      rfl
    | some f =>
      simp only [Option.toList, List.nil_append, List.cons_append, List.map_cons, parseAlignment]
      rw [(alignOf_some _ a).mpr rfl]
      rfl
  have hsw := startsWithDigit_digits _ Nat.toDigits_ne_nil hdc []
  have hsd := spanDigits_digits _ hdc [] (by simp)
  have hst := StdNum.stoul_digits w [] (by simp)
  rw [List.append_nil] at hsw hsd hst
  simp only [makeSpecifier]
  rw [if_neg (by simp), hpa]
  simp only [bind, Except.bind, parseWidth, decimal_nat, hsw, if_true, hsd]
  rw [str_digits _ hdc, hst, if_neg (by omega)]
  rfl

theorem startsWithDigit_colon (s : Str) : startsWithDigit (⟨b!":"⟩ :: s) = .ok false := by
  have h1 : (⟨b!":"⟩ : Chr).getCodePoint = .ok 0x3A := by decide
  have h2 : CharUtil.isDigit 0x3A = false := by decide +kernel
  simp only [startsWithDigit, h1, bind, Except.bind, h2]
  rfl

theorem placeholder_aligned (args : List Str) (auto : Nat) (fill : Option Chr) (a : Alignment) (w : Nat)
    (hw : w < 2 ^ 64) :
    placeholder args auto (⟨b!":"⟩ :: alignText fill a w) =
      (vecGet args 0).map fun v => (Str.str (pad (fill.getD ⟨b!" "⟩) a w v), auto) := by
  simp only [placeholder, startsWithDigit_colon, bind, Except.bind, Bool.false_eq_true, if_false,
    List.head?_cons, if_true, makeSpecifier_align fill a w hw]
  cases vecGet args 0 with
  | error e => rfl
  | ok v =>
    simp only [process, processAlignment_pad]
    rfl

theorem placeholder_index_colon (args : List Str) (auto i : Nat) (fill : Option Chr) (a : Alignment) (w : Nat)
    (hi : i < args.length) (hl : args.length < 2 ^ 63) (hw : w < 2 ^ 64) :
    placeholder args auto (decimal i ++ ⟨b!":"⟩ :: alignText fill a w) =
      (vecGet args auto).map fun v => (Str.str (pad (fill.getD ⟨b!" "⟩) a w v), auto) := by
  rw [decimal_nat]
  have h1 := startsWithDigit_digits _ Nat.toDigits_ne_nil (toDigits_digitChar i)
    (⟨b!":"⟩ :: alignText fill a w)
  have h2 := spanDigits_digits _ (toDigits_digitChar i) (⟨b!":"⟩ :: alignText fill a w) (by
    intro c hc
    simp only [List.head?_cons, Option.some.injEq] at hc
    subst hc
    exact ⟨0x3A, by decide, by decide +kernel⟩)
  have hws : wsub args.length 1 = args.length - 1 := by unfold wsub twoPow64; omega
  simp only [placeholder, h1, h2, bind, Except.bind, if_true, argIndex_decimal]
  rw [if_neg (by omega)]
  simp only []
  rw [if_neg (by omega), makeSpecifier_align fill a w hw]
  simp only []
  cases vecGet args auto with
  | error e => rfl
  | ok v =>
    simp only [process, processAlignment_pad]
    rfl

/-! ### Whole templates -/

/-- A piece that is formatted without error. -/
def GoodPiece (args : List Str) : Piece → Prop
  | .text c => Shape c.data
  | .auto => True
  | .index i => i < args.length
  | .aligned fill _ w => (∀ f, fill = some f → Shape f.data ∧ f ≠ ⟨b!"}"⟩) ∧ w < 2 ^ 64

theorem digit_ne (c : Chr) (n : Nat) (h : c ∈ decimal (n : Int)) :
    c ≠ ⟨b!"}"⟩ ∧ c ≠ ⟨b!"{"⟩ ∧ c ≠ ⟨b!":"⟩ := by
  rw [decimal_nat] at h
  obtain ⟨d, hd, rfl⟩ := List.mem_map.mp h
  have hc := toDigits_digitChar n d hd
  have key : ∀ n < 58, 48 ≤ n → (Chr.ofByte (UInt8.ofNat n) ≠ ⟨b!"}"⟩ ∧ Chr.ofByte (UInt8.ofNat n) ≠ ⟨b!"{"⟩ ∧
    Chr.ofByte (UInt8.ofNat n) ≠ ⟨b!":"⟩) := by decide
  exact key d.toNat (by have := hc.2; omega) hc.1

theorem alignText_no_close (fill : Option Chr) (a : Alignment) (w : Nat) (hf : ∀ f, fill = some f → f ≠ ⟨b!"}"⟩) :
    ⟨b!"}"⟩ ∉ alignText fill a w := by
  unfold alignText
  intro hm
  rcases List.mem_append.mp hm with hm | hm
  · rcases List.mem_append.mp hm with hm | hm
    · cases fill with
      | none => cases hm
      | some f => simp at hm; exact hf f rfl hm.symm
    · cases a <;> exact absurd hm (by decide)
  · exact (digit_ne _ _ hm).1 rfl

theorem head_decimal (i : Nat) (t : Str) : (decimal (i : Int) ++ t).head? ≠ some ⟨b!"{"⟩ := by
  intro h
  have hne : decimal (i : Int) ≠ [] := by
    rw [decimal_nat]; simp [Nat.toDigits_ne_nil]
  cases hd : decimal (i : Int) with
  | nil => exact hne hd
  | cons c cs =>
    rw [hd] at h
    simp only [List.cons_append, List.head?_cons, Option.some.injEq] at h
    exact (digit_ne c i (by rw [hd]; simp)).2.1 h

/-- One piece at the front of the template. The number of `{}` so far is `auto`, or anything if there is
one argument (then the code does not count). -/
theorem loop_piece (args : List Str) (hl : args.length < 2 ^ 63) (p : Piece) (hp : GoodPiece args p) (n k auto : Nat)
    (rest : Str) (hne : args ≠ [])
    (hk : args.length = 1 ∧ auto = 0 ∨ args.length ≠ 1 ∧ auto = k ∧ (p = .auto → k < args.length)) :
    loop args (n + 1) (p.written ++ rest) auto =
      (do
        let out ← loop args n rest (if p = .auto ∧ args.length ≠ 1 then auto + 1 else auto)
        return Str.str (render args k [p]) ++ out) := by
  have h0 : 0 < args.length := List.length_pos_iff.mpr hne
  have hget : ∀ i, i < args.length → vecGet args i = .ok (args.getD i []) := by
    intro i hi
    unfold vecGet
    rw [List.getElem?_eq_getElem hi, List.getD_eq_getElem?_getD, List.getElem?_eq_getElem hi]; rfl
  cases p with
  | text c =>
    rw [loop_text, if_neg (by simp)]
    simp [render, Str.str]
  | auto =>
    have := loop_hole args n [] rest auto (by simp) (by simp)
    simp only [List.nil_append] at this
    show loop args (n + 1) (⟨b!"{"⟩ :: ⟨b!"}"⟩ :: rest) auto = _
    rw [this, placeholder_auto]
    rcases hk with ⟨h1, h2⟩ | ⟨h1, h2, h3⟩
    · rw [if_pos h1, hget 0 h0, if_neg (by simp [h1])]
      simp [Except.map, bind, Except.bind, render, h1]
    · have h4 := h3 rfl
      rw [if_neg h1, if_pos (by omega), hget auto (by omega), if_pos ⟨rfl, h1⟩]
      simp [Except.map, bind, Except.bind, render, h1, h2]
  | index i =>
    have hp' : i < args.length := hp
    have := loop_hole args n (decimal (i : Int)) rest auto (fun hm => (digit_ne _ _ hm).1 rfl)
      (by have := head_decimal i []; rwa [List.append_nil] at this)
    simp only [Piece.written, List.cons_append, List.nil_append, List.append_assoc]
    rw [this, placeholder_index, if_neg (by unfold wsub twoPow64; omega), hget i hp', if_neg (by simp)]
    simp [Except.map, bind, Except.bind, render]
  | aligned fill a w =>
    obtain ⟨hf, hw⟩ := hp
    have := loop_hole args n (⟨b!":"⟩ :: alignText fill a w) rest auto (by
      intro hm
      rcases List.mem_cons.mp hm with e | hm
      · exact absurd e (by decide)
      · exact alignText_no_close fill a w (fun f hff => (hf f hff).2) hm) (by simp)
    simp only [Piece.written, List.cons_append, List.nil_append, List.append_assoc] at this ⊢
    rw [this, placeholder_aligned _ _ _ _ _ hw, hget 0 h0, if_neg (by simp)]
    simp [Except.map, bind, Except.bind, render]

theorem render_cons (args : List Str) (k : Nat) (p : Piece) (ps : List Piece) :
    render args k (p :: ps) = render args k [p] ++ render args (if p = .auto then k + 1 else k) ps := by
  cases p <;> simp [render]

theorem autos_cons (p : Piece) (ps : List Piece) : autos (p :: ps) = (if p = .auto then 1 else 0) + autos ps := by
  cases p <;> simp [autos, Nat.add_comm]

/-- A sequence of pieces at the front of the template. -/
theorem loop_pieces (args : List Str) (hl : args.length < 2 ^ 63) (hne : args ≠ []) (rest : Str) (n : Nat) :
    ∀ (ps : List Piece) (k auto : Nat), (∀ p ∈ ps, GoodPiece args p) →
      (args.length = 1 ∧ auto = 0 ∨ args.length ≠ 1 ∧ auto = k ∧ k + autos ps ≤ args.length) →
      loop args (n + ps.length) (ps.flatMap Piece.written ++ rest) auto =
        (do
          let out ← loop args n rest (if args.length = 1 then 0 else k + autos ps)
          return Str.str (render args k ps) ++ out)
  | [], k, auto, _, hk => by
    have : (if args.length = 1 then 0 else k + autos []) = auto := by
      rcases hk with ⟨h1, h2⟩ | ⟨h1, h2, _⟩ <;> simp [h1, h2, autos]
    rw [this]
    simp only [List.flatMap_nil, List.nil_append, List.length_nil, Nat.add_zero, render, Str.str]
    cases loop args n rest auto <;> rfl
  | p :: ps, k, auto, hp, hk => by
    rw [List.flatMap_cons, List.append_assoc, List.length_cons, ← Nat.add_assoc]
    have hac := autos_cons p ps
    rw [loop_piece args hl p (hp p (by simp)) _ k auto _ hne (by
      rcases hk with ⟨h1, h2⟩ | ⟨h1, h2, h3⟩
      · exact .inl ⟨h1, h2⟩
      · refine .inr ⟨h1, h2, fun e => ?_⟩
        rw [if_pos e] at hac; omega)]
    have ih := loop_pieces args hl hne rest n ps (if p = .auto then k + 1 else k)
      (if p = .auto ∧ args.length ≠ 1 then auto + 1 else auto) (fun q hq => hp q (by simp [hq])) (by
        rcases hk with ⟨h1, h2⟩ | ⟨h1, h2, h3⟩
        · exact .inl ⟨h1, by rw [if_neg (by simp [h1])]; exact h2⟩
        · refine .inr ⟨h1, ?_, ?_⟩
          · by_cases e : p = .auto <;> simp [e, h1, h2]
          · by_cases e : p = .auto
            · rw [if_pos e] at hac ⊢; omega
            · rw [if_neg e] at hac ⊢; omega)
    rw [ih]
    have hk' : (if args.length = 1 then 0 else (if p = .auto then k + 1 else k) + autos ps) =
        (if args.length = 1 then 0 else k + autos (p :: ps)) := by
      by_cases e : p = .auto
      · rw [if_pos e] at hac ⊢; rw [hac, Nat.add_assoc]
      · rw [if_neg e] at hac ⊢; rw [hac, Nat.zero_add]
    rw [hk', render_cons args k p ps, Str.str_append]
    cases loop args n rest (if args.length = 1 then 0 else k + autos (p :: ps)) with
    | error e => rfl
    | ok out => simp [bind, Except.bind, pure, Except.pure]

theorem pad_shape (fill : Chr) (a : Alignment) (w : Nat) (s : Str) (hf : Shape fill.data)
    (hs : ∀ c ∈ s, Shape c.data) : ∀ c ∈ pad fill a w s, Shape c.data := by
  intro c hc
  have hr : ∀ n, c ∈ List.replicate n fill → Shape c.data := by
    intro n hn; rw [List.eq_of_mem_replicate hn]; exact hf
  unfold pad at hc
  cases a <;> simp only [List.mem_append] at hc
  · exact hc.elim (hs c) (hr _)
  · exact hc.elim (hr _) (hs c)
  · exact hc.elim (fun h => h.elim (hr _) (hs c)) (hr _)

theorem render_shape (args : List Str) (ha : ∀ a ∈ args, ∀ c ∈ a, Shape c.data) :
    ∀ (ps : List Piece) (k : Nat), (∀ p ∈ ps, GoodPiece args p) → ∀ c ∈ render args k ps, Shape c.data
  | [], _, _, c, hc => by simp [render] at hc
  | p :: ps, k, hp, c, hc => by
    have hget : ∀ i, ∀ c ∈ args.getD i [], Shape c.data := by
      intro i c hc
      rw [List.getD_eq_getElem?_getD] at hc
      cases h : args[i]? with
      | none => rw [h] at hc; cases hc
      | some a => rw [h] at hc; exact ha a (List.mem_of_getElem? h) c hc
    rw [render_cons, List.mem_append] at hc
    rcases hc with hc | hc
    · have hpp := hp p (by simp)
      cases p with
      | text d => simp [render] at hc; subst hc; exact hpp
      | auto => simp only [render, List.append_nil] at hc; exact hget _ c hc
      | index i => simp only [render, List.append_nil] at hc; exact hget _ c hc
      | aligned fill a w =>
        simp only [render, List.append_nil] at hc
        refine pad_shape _ a w _ ?_ (hget 0) c hc
        cases fill with
        | none => exact .one _ (by decide) (by decide)
        | some f => exact (hpp.1 f rfl).1
    · exact render_shape args ha ps _ (fun q hq => hp q (by simp [hq])) c hc

theorem written_length (ps : List Piece) : ps.length ≤ (ps.flatMap Piece.written).length := by
  induction ps with
  | nil => simp
  | cons p ps ih =>
    rw [List.flatMap_cons, List.length_append, List.length_cons]
    have : 1 ≤ p.written.length := by
      cases p <;> simp [Piece.written]
      split <;> simp
    omega

/-- `Format` on the pieces followed by any text. -/
theorem format_pieces (args : List Str) (hl : args.length < 2 ^ 63) (hne : args ≠ []) (rest : Str)
    (ps : List Piece) (hp : ∀ p ∈ ps, GoodPiece args p) (hk : args.length = 1 ∨ autos ps ≤ args.length) :
    ∃ n, format (ps.flatMap Piece.written ++ rest) args =
        (do
          let out ← loop args (n + rest.length + 1) rest (if args.length = 1 then 0 else autos ps)
          Str.ofStdString (Str.str (render args 0 ps) ++ out)) := by
  refine ⟨(ps.flatMap Piece.written).length - ps.length, ?_⟩
  unfold format
  have := written_length ps
  rw [show (ps.flatMap Piece.written ++ rest).length + 1 =
    ((ps.flatMap Piece.written).length - ps.length + rest.length + 1) + ps.length by
      rw [List.length_append]; omega]
  rw [loop_pieces args hl hne rest _ ps 0 0 hp (by
    by_cases h1 : args.length = 1
    · exact .inl ⟨h1, rfl⟩
    · exact .inr ⟨h1, rfl, by rcases hk with h | h <;> omega⟩)]
  rw [Nat.zero_add]
  cases loop args ((ps.flatMap Piece.written).length - ps.length + rest.length + 1) rest
    (if args.length = 1 then 0 else autos ps) <;> rfl

end Caitlyn.Format
