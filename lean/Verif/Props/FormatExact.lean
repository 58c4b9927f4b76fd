import Verif.Props.FormatFull

/-!
# C32, C34, C35, exactly

Corollaries of `C115_exact`: which templates and arguments make `Format` undefined, which templates with an unmatched
bracket raise another error than `FormatError`, and which placeholders `{i:spec}` format argument `i`.
-/

namespace Caitlyn
open Caitlyn.Spec Format BigInt

namespace Spec.Template

/-- The number of plain placeholders that count after the items, if all of them can be rendered. -/
def counted (args : List Str) : Nat → List Item → Option Nat
  | k, [] => some k
  | k, .char _ :: is => counted args k is
  | k, .bracket _ :: is => counted args k is
  | k, .hole h :: is =>
    match hole args k h with
    | .ok r => counted args r.2 is
    | .error _ => none

/-- The first placeholder that cannot be rendered is `{h}`, with `k` plain placeholders before it that count. -/
def FirstBad (args : List Str) (items : List Item) (h : Str) (k : Nat) (e : Err) : Prop :=
  ∃ pre post, items = pre ++ .hole h :: post ∧ counted args 0 pre = some k ∧ hole args k h = .error e

end Spec.Template
open Spec.Template

private theorem outcome_error (args : List Str) (left : Str) (e : Err) : ∀ (items : List Item) (k : Nat),
    outcome args left k items = .error e ↔
      (∃ pre h post k', items = pre ++ .hole h :: post ∧ counted args k pre = some k' ∧ hole args k' h = .error e) ∨
      (left ≠ [] ∧ e = .formatError ∧ (counted args k items).isSome)
  | [], k => by
    simp only [outcome, counted, Option.isSome_some, and_true]
    constructor
    · intro h
      split at h
      · cases h
      · cases h; exact .inr ⟨by assumption, rfl⟩
    · rintro (⟨pre, h, post, k', h1, _⟩ | ⟨h1, rfl⟩)
      · exact absurd h1 (by simp)
      · rw [if_neg h1]
  | .char c :: is, k => by
    have ih := outcome_error args left e is k
    have e1 : outcome args left k (.char c :: is) = .error e ↔ outcome args left k is = .error e := by
      simp only [outcome]; cases outcome args left k is <;> simp [Except.map]
    rw [e1, ih]
    constructor
    · rintro (⟨pre, h, post, k', h1, h2, h3⟩ | h)
      · exact .inl ⟨.char c :: pre, h, post, k', by rw [h1]; rfl, h2, h3⟩
      · exact .inr h
    · rintro (⟨pre, h, post, k', h1, h2, h3⟩ | h)
      · cases pre with
        | nil => cases h1
        | cons i pre =>
          simp only [List.cons_append, List.cons.injEq] at h1
          obtain ⟨rfl, h1⟩ := h1
          exact .inl ⟨pre, h, post, k', h1, h2, h3⟩
      · exact .inr h
  | .bracket c :: is, k => by
    have ih := outcome_error args left e is k
    have e1 : outcome args left k (.bracket c :: is) = .error e ↔ outcome args left k is = .error e := by
      simp only [outcome]; cases outcome args left k is <;> simp [Except.map]
    rw [e1, ih]
    constructor
    · rintro (⟨pre, h, post, k', h1, h2, h3⟩ | h)
      · exact .inl ⟨.bracket c :: pre, h, post, k', by rw [h1]; rfl, h2, h3⟩
      · exact .inr h
    · rintro (⟨pre, h, post, k', h1, h2, h3⟩ | h)
      · cases pre with
        | nil => cases h1
        | cons i pre =>
          simp only [List.cons_append, List.cons.injEq] at h1
          obtain ⟨rfl, h1⟩ := h1
          exact .inl ⟨pre, h, post, k', h1, h2, h3⟩
      · exact .inr h
  | .hole b :: is, k => by
    cases hb : hole args k b with
    | error e' =>
      have e1 : outcome args left k (.hole b :: is) = .error e' := by
        simp only [outcome, bind, Except.bind, hb]
      rw [e1]
      constructor
      · intro h; cases h
        exact .inl ⟨[], b, is, k, rfl, rfl, hb⟩
      · rintro (⟨pre, h, post, k', h1, h2, h3⟩ | ⟨_, _, h⟩)
        · cases pre with
          | nil =>
            simp only [List.nil_append, List.cons.injEq, Item.hole.injEq] at h1
            obtain ⟨rfl, _⟩ := h1
            simp only [counted, Option.some.injEq] at h2
            subst h2
            rw [hb] at h3; cases h3; rfl
          | cons i pre =>
            simp only [List.cons_append, List.cons.injEq] at h1
            obtain ⟨rfl, h1⟩ := h1
            simp only [counted, hb] at h2
            cases h2
        · simp [counted, hb] at h
    | ok r =>
      have ih := outcome_error args left e is r.2
      have e1 : outcome args left k (.hole b :: is) = .error e ↔ outcome args left r.2 is = .error e := by
        simp only [outcome, bind, Except.bind, hb]
        cases outcome args left r.2 is <;> simp [pure, Except.pure]
      rw [e1, ih]
      simp only [counted, hb]
      constructor
      · rintro (⟨pre, h, post, k', h1, h2, h3⟩ | h)
        · exact .inl ⟨.hole b :: pre, h, post, k', by rw [h1]; rfl, by simp only [counted, hb]; exact h2, h3⟩
        · exact .inr h
      · rintro (⟨pre, h, post, k', h1, h2, h3⟩ | h)
        · cases pre with
          | nil =>
            simp only [List.nil_append, List.cons.injEq, Item.hole.injEq] at h1
            obtain ⟨rfl, _⟩ := h1
            simp only [counted, Option.some.injEq] at h2
            subst h2
            rw [hb] at h3; cases h3
          | cons i pre =>
            simp only [List.cons_append, List.cons.injEq] at h1
            obtain ⟨rfl, h1⟩ := h1
            simp only [counted, hb] at h2
            exact .inl ⟨pre, h, post, k', h1, h2, h3⟩
        · exact .inr h

/-- C34, exactly: `Format` is undefined if and only if the first placeholder that cannot be rendered is undefined. Which ones
are, `C115_undefined` says. -/
theorem C34_exact_fails (args : List Str) (hl : args.length < 2 ^ 63)
    (ha : ∀ a ∈ args, (∀ c ∈ a, Shape c.data) ∧ a.length < npos) (items : List Item) (left : Str)
    (hp : ∀ i ∈ items, i.Proper) (hleft : Leftover left) (hs : ∀ c ∈ items.flatMap Item.written, Shape c.data) :
    format (items.flatMap Item.written ++ left) args = .error .ub ↔ ∃ h k, FirstBad args items h k .ub := by
  rw [C115_exact args hl ha items left hp hleft hs, outcome_error]
  constructor
  · rintro (⟨pre, h, post, k, h1, h2, h3⟩ | ⟨_, h, _⟩)
    · exact ⟨h, k, pre, post, h1, h2, h3⟩
    · cases h
  · rintro ⟨h, k, pre, post, h1, h2, h3⟩
    exact .inl ⟨pre, h, post, k, h1, h2, h3⟩

/-- The third of three plain placeholders is undefined with two arguments; a wrong index before it prevents it. -/
example : FirstBad [c!"a", c!"b"] [.hole [], .char ⟨b!"x"⟩, .hole [], .hole []] [] 2 .ub ∧
    format c!"{}x{}{}" [c!"a", c!"b"] = .error .ub ∧ format c!"{}x{}{7}{}" [c!"a", c!"b"] = .error .formatError := by
  refine ⟨⟨[.hole [], .char ⟨b!"x"⟩, .hole []], [], rfl, ?_, ?_⟩, ?_⟩ <;> decide +kernel

/-- C34. Without arguments every placeholder that is not rejected is undefined, unless text follows its index. -/
theorem C34_no_arguments_fails (k : Nat) (h : Str) :
    hole [] k h = .error .ub ↔
      (h.takeWhile anyDigit = [] ∧ h.head? = some ⟨b!":"⟩ ∧ (h = c!":" ∨ ∃ s, specification h.tail = .ok s)) ∨
      (h.takeWhile anyDigit ≠ [] ∧ ∃ i, number (2 ^ 64) (h.takeWhile anyDigit) = .ok i ∧
        (h.dropWhile anyDigit = [] ∨ ∃ t, h.dropWhile anyDigit = ⟨b!":"⟩ :: t ∧ (t = [] ∨ ∃ s, specification t = .ok s))) := by
  have hnum : ∀ l t, number l t ≠ .error .ub := by
    intro l t he
    unfold number at he
    simp only at he
    split at he
    · cases he
    · split at he <;> cases he
  have hpart : ∀ l t, numberPart l t ≠ .error .ub := by
    intro l t he
    unfold numberPart at he
    split at he
    · cases he
    · cases hn : number l t with
      | error e' => rw [hn] at he; cases he; exact hnum l t hn
      | ok n => rw [hn] at he; cases he
  have hspec : ∀ t, specification t = .error .ub ↔ t = [] := by
    intro t
    constructor
    · intro he
      unfold specification at he
      split at he
      · assumption
      · simp only [bind, Except.bind] at he
        split at he
        · rename_i hx
          cases he
          exact absurd hx (hpart _ _)
        · split at he
          · rename_i hx
            cases he
            unfold pointPart at hx
            split at hx
            · exact absurd hx (hpart _ _)
            · cases hx
          · cases he
    · rintro rfl; rfl
  have hfor : ∀ i (k : Nat) t, (formattedArg [] i t).map (·, k) = .error .ub ↔ t = [] ∨ ∃ s, specification t = .ok s := by
    intro i k t
    rw [← hspec t]
    unfold formattedArg
    cases hx : specification t with
    | error e => simp [Except.map, bind, Except.bind]
    | ok s => simp [Except.map, bind, Except.bind, argument]
  unfold hole
  simp only
  by_cases hd : h.takeWhile anyDigit = []
  · rw [if_neg (by simp [hd])]
    simp only [hd, ne_eq, not_true_eq_false, false_and, or_false, true_and]
    by_cases hc : h.head? = some ⟨b!":"⟩
    · rw [if_pos hc, hfor]
      have e := head_colon h hc
      constructor
      · rintro (ht | hx)
        · rw [ht] at e; exact ⟨hc, .inl e⟩
        · exact ⟨hc, .inr hx⟩
      · rintro ⟨_, rfl | hx⟩
        · exact .inl rfl
        · exact .inr hx
    · rw [if_neg hc]
      simp [hc]
  · rw [if_pos hd]
    simp only [hd, false_and, ne_eq, not_false_eq_true, true_and, false_or]
    cases hn : number (2 ^ 64) (h.takeWhile anyDigit) with
    | error e =>
      have : e ≠ .ub := by rintro rfl; exact hnum _ _ hn
      cases e <;> simp_all
    | ok i =>
      simp only [not_true_eq_false, false_and, if_false, Except.ok.injEq, exists_eq_left']
      cases hr : h.dropWhile anyDigit with
      | nil => simp [argument, Except.map]
      | cons c r =>
        rw [if_neg (by simp)]
        simp only [List.head?_cons, Option.some.injEq, List.tail_cons, List.cons.injEq, reduceCtorEq, false_or]
        by_cases hcc : c = ⟨b!":"⟩
        · rw [if_pos hcc, hfor]
          simp [hcc]
        · rw [if_neg hcc]
          simp [hcc]

example : hole [] 0 c!"0" = .error .ub ∧ hole [] 0 c!":>3" = .error .ub ∧ hole [] 0 c!"7:" = .error .ub ∧
    hole [] 0 c!"0x" = .ok ([], 0) ∧ hole [] 0 c!"x" = .error .formatError := by decide +kernel

/-- C35. A template with an unmatched bracket never returns: whatever the arguments, an error is raised (or the call is undefined). -/
theorem C35_never_returns (args : List Str) (hl : args.length < 2 ^ 63)
    (ha : ∀ a ∈ args, (∀ c ∈ a, Shape c.data) ∧ a.length < npos) (items : List Item) (left : Str)
    (hp : ∀ i ∈ items, i.Proper) (hleft : Leftover left) (hs : ∀ c ∈ items.flatMap Item.written, Shape c.data)
    (hne : left ≠ []) (t : Str) : format (items.flatMap Item.written ++ left) args ≠ .ok t := by
  rw [C115_exact args hl ha items left hp hleft hs]
  clear hs hp
  suffices ∀ k, outcome args left k items ≠ .ok t from this 0
  induction items generalizing t with
  | nil => intro k h; rw [outcome, if_neg hne] at h; cases h
  | cons i items ih =>
    intro k h
    cases i with
    | char c =>
      simp only [outcome] at h
      cases ho : outcome args left k items with
      | error e => rw [ho] at h; cases h
      | ok u => exact ih u k ho
    | bracket c =>
      simp only [outcome] at h
      cases ho : outcome args left k items with
      | error e => rw [ho] at h; cases h
      | ok u => exact ih u k ho
    | hole b =>
      simp only [outcome, bind, Except.bind] at h
      cases hb : hole args k b with
      | error e => rw [hb] at h; cases h
      | ok r =>
        rw [hb] at h
        simp only at h
        cases ho : outcome args left r.2 items with
        | error e => rw [ho] at h; cases h
        | ok u => exact ih u r.2 ho

/-- C35, exactly: a template with an unmatched bracket raises `FormatError` if and only if no placeholder before the bracket is the
first to fail with something else. Which kinds of failure there are, `C115_kinds` says. -/
theorem C35_exact_fails (args : List Str) (hl : args.length < 2 ^ 63)
    (ha : ∀ a ∈ args, (∀ c ∈ a, Shape c.data) ∧ a.length < npos) (items : List Item) (left : Str)
    (hp : ∀ i ∈ items, i.Proper) (hleft : Leftover left) (hs : ∀ c ∈ items.flatMap Item.written, Shape c.data)
    (hne : left ≠ []) :
    format (items.flatMap Item.written ++ left) args = .error .formatError ↔
      ∀ h k e, FirstBad args items h k e → e = .formatError := by
  have hx := C115_exact args hl ha items left hp hleft hs
  have hno := C35_never_returns args hl ha items left hp hleft hs hne
  rw [hx] at hno ⊢
  constructor
  · rintro hf h k e ⟨pre, post, h1, h2, h3⟩
    have := (outcome_error args left e items 0).mpr (.inl ⟨pre, h, post, k, h1, h2, h3⟩)
    rw [hf] at this; cases this; rfl
  · intro hall
    cases ho : outcome args left 0 items with
    | ok t => exact absurd ho (hno t)
    | error e =>
      rcases (outcome_error args left e items 0).mp ho with ⟨pre, h, post, k, h1, h2, h3⟩ | ⟨_, rfl, _⟩
      · rw [hall h k e ⟨pre, post, h1, h2, h3⟩]
      · rfl

example : format c!"{:99999999999999999999}{" [c!"a"] = .error .outOfRange ∧
    FirstBad [c!"a"] [.hole c!":99999999999999999999"] c!":99999999999999999999" 0 .outOfRange := by
  refine ⟨by decide +kernel, ⟨[], [], rfl, rfl, by decide +kernel⟩⟩

/-- C32, exactly, for every specification: `{i:spec}` with a valid index stands for what `spec` makes of the argument whose number
is that of the plain placeholders counted so far; so it stands for argument `i` if and only if this is the text of argument `i`
in the same specification. -/
theorem C32_exact_fails (args : List Str) (k i : Nat) (hi : i < args.length) (hb : args.length ≤ 2 ^ 64) (t : Str) :
    hole args k (decimal i ++ ⟨b!":"⟩ :: t) = (formattedArg args k t).map (·, k) ∧
    (hole args k (decimal i ++ ⟨b!":"⟩ :: t) = (formattedArg args i t).map (·, k) ↔ formattedArg args k t = formattedArg args i t) := by
  have hdig : ∀ d ∈ Nat.toDigits 10 i, anyDigit (asc d) = true ∧ asc d ∈ digitChrs ∧ digitChrs.idxOf (asc d) = d.toNat - 48 := by
    intro d hd
    have hdc := toDigits_digitChar i d hd
    have key : ∀ n < 58, 48 ≤ n → (anyDigit (Chr.ofByte (UInt8.ofNat n)) = true ∧ Chr.ofByte (UInt8.ofNat n) ∈ digitChrs ∧
        digitChrs.idxOf (Chr.ofByte (UInt8.ofNat n)) = n - 48) := by decide +kernel
    exact key d.toNat (by have := hdc.2; omega) hdc.1
  have hcolon : anyDigit ⟨b!":"⟩ = false := by decide +kernel
  have htake : ∀ (ds : List Char), (∀ d ∈ ds, anyDigit (asc d) = true) →
      (ds.map asc ++ ⟨b!":"⟩ :: t).takeWhile anyDigit = ds.map asc ∧
      (ds.map asc ++ ⟨b!":"⟩ :: t).dropWhile anyDigit = ⟨b!":"⟩ :: t := by
    intro ds
    induction ds with
    | nil => intro _; simp [hcolon]
    | cons d ds ih =>
      intro h
      obtain ⟨h1, h2⟩ := ih fun x hx => h x (by simp [hx])
      simp [h d (by simp), h1, h2]
  have hall : ∀ (ds : List Char), (∀ d ∈ ds, asc d ∈ digitChrs) → (ds.map asc).takeWhile (· ∈ digitChrs) = ds.map asc := by
    intro ds
    induction ds with
    | nil => intro _; rfl
    | cons d ds ih =>
      intro h
      have h1 := ih fun x hx => h x (by simp [hx])
      simp only [List.map_cons, List.takeWhile_cons, h d (by simp), decide_true, if_true, h1]
  have hval : ∀ (ds : List Char) (n : Nat), (∀ d ∈ ds, digitChrs.idxOf (asc d) = d.toNat - 48) →
      (ds.map asc).foldl (fun n c => n * 10 + digitChrs.idxOf c) n = Nat.ofDigitChars 10 ds n := by
    intro ds
    induction ds with
    | nil => intro n _; simp [Nat.ofDigitChars]
    | cons d ds ih =>
      intro n h
      rw [List.map_cons, List.foldl_cons, ih _ (fun x hx => h x (by simp [hx])), h d (by simp)]
      simp only [Nat.ofDigitChars, List.foldl_cons]
      rw [Nat.mul_comm]
      rfl
  obtain ⟨t1, t2⟩ := htake (Nat.toDigits 10 i) fun d hd => (hdig d hd).1
  have hne : (Nat.toDigits 10 i).map asc ≠ [] := by simp [Nat.toDigits_ne_nil]
  have hn : number (2 ^ 64) ((Nat.toDigits 10 i).map asc) = .ok i := by
    unfold number
    simp only
    rw [hall _ fun d hd => (hdig d hd).2.1, if_neg hne]
    have : numeral ((Nat.toDigits 10 i).map asc) = i := by
      unfold numeral
      rw [hval _ _ fun d hd => (hdig d hd).2.2, Nat.ofDigitChars_ten_toDigits]
    rw [this, if_neg (by omega)]
  have hh : hole args k (decimal i ++ ⟨b!":"⟩ :: t) = (formattedArg args k t).map (·, k) := by
    rw [decimal_nat]
    unfold hole
    simp only [t1, t2, hn]
    rw [if_pos hne, if_neg (by omega), if_neg (by simp), if_pos (by simp)]
    rfl
  refine ⟨hh, ?_⟩
  rw [hh]
  cases formattedArg args k t <;> cases formattedArg args i t <;> simp [Except.map]

/-- The index is ignored as long as it is valid: `{1:>3}` is the first argument, or the second after one plain placeholder, or beyond
the arguments after two. -/
example : format c!"{1:>3}" [c!"a", c!"b"] = .ok c!"  a" ∧ format c!"{}{0:>3}" [c!"a", c!"b"] = .ok c!"a  b" ∧
    format c!"{}{}{0:>3}" [c!"a", c!"b"] = .error .ub := by decide +kernel

end Caitlyn
