import Verif.Proofs.FormatFull
import Verif.Props.Format

/-! # C115: `String::Format` on every template -/

namespace Caitlyn
open Caitlyn.Spec Format

private theorem cut_close {a b x y : Str} (ha : (⟨b!"}"⟩ : Chr) ∉ a) (hb : (⟨b!"}"⟩ : Chr) ∉ b)
    (h : a ++ ⟨b!"}"⟩ :: x = b ++ ⟨b!"}"⟩ :: y) : a = b ∧ x = y := by
  induction a generalizing b with
  | nil =>
    cases b with
    | nil => simpa using h
    | cons c b => simp only [List.nil_append, List.cons_append, List.cons.injEq] at h; exact absurd h.1 (by
        intro e; exact hb (by rw [e]; simp))
  | cons c a ih =>
    cases b with
    | nil =>
      simp only [List.nil_append, List.cons_append, List.cons.injEq] at h
      exact absurd (by rw [h.1]; simp) ha
    | cons d b =>
      simp only [List.cons_append, List.cons.injEq] at h
      obtain ⟨h1, h2⟩ := ih (fun m => ha (by simp [m])) (fun m => hb (by simp [m])) h.2
      exact ⟨by rw [h.1, h1], h2⟩

private theorem leftover_item (i : Item) (r left : Str) (hi : i.Proper) (hl : Leftover left) : left ≠ i.written ++ r := by
  rintro rfl
  cases i with
  | char c =>
    rcases hl with h | ⟨x, h, _⟩ | ⟨x, h, _⟩
    · cases h
    · exact hi.1 (List.cons.inj h).1
    · exact hi.2 (List.cons.inj h).1
  | bracket c =>
    rcases hl with h | ⟨x, h, h1, _⟩ | ⟨x, h, h1⟩
    · cases h
    · simp only [Item.written, List.cons_append, List.nil_append, List.cons.injEq] at h
      exact h1 (by rw [← h.2, List.head?_cons, h.1])
    · simp only [Item.written, List.cons_append, List.nil_append, List.cons.injEq] at h
      exact h1 (by rw [← h.2, List.head?_cons, h.1])
  | hole b =>
    rcases hl with h | ⟨x, h, _, h1⟩ | ⟨x, h, _⟩
    · cases h
    · simp only [Item.written, List.cons_append, List.cons.injEq] at h
      exact h1 (by rw [← h.2]; simp)
    · exact absurd (List.cons.inj h).1 (by decide)

private theorem items_unique (is js : List Item) (l m : Str) (hi : ∀ i ∈ is, i.Proper) (hj : ∀ j ∈ js, j.Proper)
    (hl : Leftover l) (hm : Leftover m) (h : is.flatMap Item.written ++ l = js.flatMap Item.written ++ m) :
    is = js ∧ l = m := by
  induction is generalizing js with
  | nil =>
    cases js with
    | nil => exact ⟨rfl, h⟩
    | cons j js =>
      rw [List.flatMap_nil, List.nil_append, List.flatMap_cons, List.append_assoc] at h
      exact absurd h (leftover_item j _ l (hj j (by simp)) hl)
  | cons i is ih =>
    cases js with
    | nil =>
      rw [List.flatMap_nil, List.nil_append, List.flatMap_cons, List.append_assoc] at h
      exact absurd h.symm (leftover_item i _ m (hi i (by simp)) hm)
    | cons j js =>
      rw [List.flatMap_cons, List.flatMap_cons, List.append_assoc, List.append_assoc] at h
      have pi := hi i (by simp)
      have pj := hj j (by simp)
      have next : ∀ (_ : i = j) (_ : is.flatMap Item.written ++ l = js.flatMap Item.written ++ m), i :: is = j :: js ∧ l = m := by
        rintro rfl h
        obtain ⟨h1, h2⟩ := ih js (fun x hx => hi x (by simp [hx])) (fun x hx => hj x (by simp [hx])) h
        exact ⟨by rw [h1], h2⟩
      generalize is.flatMap Item.written ++ l = x at h next
      generalize js.flatMap Item.written ++ m = y at h next
      cases i <;> cases j <;> simp only [Item.written, Item.Proper, List.cons_append, List.nil_append, List.append_assoc,
        List.cons.injEq] at h pi pj
      · exact next (by rw [h.1]) h.2
      · rw [h.1] at pi; exact absurd pj (by simp [pi])
      · exact absurd h.1 pi.1
      · rw [← h.1] at pj; exact absurd pi (by simp [pj])
      · exact next (by rw [h.1]) h.2.2
      · rename_i c b
        obtain ⟨h1, h2⟩ := h
        rw [h1] at h2
        cases b with
        | nil => simp only [List.nil_append, List.cons.injEq] at h2; exact absurd h2.1 (by decide)
        | cons d b =>
          simp only [List.cons_append, List.cons.injEq] at h2
          exact absurd (by rw [← h2.1]; rfl) pj.1
      · exact absurd h.1.symm pj.1
      · rename_i b c
        obtain ⟨h1, h2⟩ := h
        rw [← h1] at h2
        cases b with
        | nil => simp only [List.nil_append, List.cons.injEq] at h2; exact absurd h2.1 (by decide)
        | cons d b =>
          simp only [List.cons_append, List.cons.injEq] at h2
          exact absurd (by rw [h2.1]; rfl) pi.1
      · obtain ⟨h1, h2⟩ := cut_close pi.2 pj.2 h.2
        exact next (by rw [h1]) h2

/-- C115. Every template is cut in exactly one way into items — characters, doubled brackets and placeholders — and a
leftover text, which is empty or starts with a bracket that is neither doubled nor closed. -/
theorem C115_items (t : Str) :
    ∃ (items : List Item) (left : Str), (t = items.flatMap Item.written ++ left ∧ (∀ i ∈ items, i.Proper) ∧ Leftover left) ∧
      ∀ (items' : List Item) (left' : Str), t = items'.flatMap Item.written ++ left' → (∀ i ∈ items', i.Proper) →
        Leftover left' → items' = items ∧ left' = left := by
  obtain ⟨items, left, h1, h2, h3⟩ := items_exist t
  refine ⟨items, left, ⟨h1, h2, h3⟩, fun is l e hp hl => ?_⟩
  exact items_unique is items l left hp h2 hl h3 (by rw [← e, h1])

/-- C115, exactly: what `Format` does for every template, given by its items, and all arguments (also none): the items are
rendered from left to right; the first placeholder that cannot be rendered decides the outcome; leftover text raises
`FormatError` when it is reached. -/
theorem C115_exact (args : List Str) (hl : args.length < 2 ^ 63)
    (ha : ∀ a ∈ args, (∀ c ∈ a, Shape c.data) ∧ a.length < npos) (items : List Item) (left : Str)
    (hp : ∀ i ∈ items, i.Proper) (hleft : Leftover left) (hs : ∀ c ∈ items.flatMap Item.written, Shape c.data) :
    format (items.flatMap Item.written ++ left) args = outcome args left 0 items := by
  obtain ⟨h1, h2⟩ := loop_items args hl ha left hleft items ((items.flatMap Item.written ++ left).length + 1) 0
    (Nat.lt_succ_self _) hp hs
  unfold format
  rw [h1]
  cases ho : outcome args left 0 items with
  | error e => rfl
  | ok t => simp only [Except.map, bind, Except.bind]; rw [Str.ofStdString_str t (h2 t ho)]

/-- Four placeholders: an indexed one with a specification and text after it, an unknown word (taken for `{}`), text after an
index (written as nothing), and digits of which only the first is ASCII. -/
example : format c!"{0:>4dxyz}|{name}|{0q}|{0٣}" [c!"ab", c!"c"] = .ok c!"  ab|ab||ab" ∧
    outcome [c!"ab", c!"c"] [] 0 [.hole c!"0:>4dxyz", .char ⟨b!"|"⟩, .hole c!"name", .char ⟨b!"|"⟩, .hole c!"0q",
      .char ⟨b!"|"⟩, .hole c!"0٣"] = .ok c!"  ab|ab||ab" := by decide +kernel

private theorem hole_kinds (args : List Str) (k : Nat) (h : Str) (e : Err) (he : hole args k h = .error e) :
    e ∈ [.ub, .formatError, .outOfRange, .invalidArgument] := by
  have hnum : ∀ l t e, number l t = .error e → e = .outOfRange ∨ e = .invalidArgument := by
    intro l t e he
    unfold number at he
    simp only at he
    split at he
    · cases he; exact .inr rfl
    · split at he
      · cases he; exact .inl rfl
      · cases he
  have hpart : ∀ l t e, numberPart l t = .error e → e = .outOfRange ∨ e = .invalidArgument := by
    intro l t e he
    unfold numberPart at he
    split at he
    · cases he
    · cases hn : number l t with
      | error e' => rw [hn] at he; cases he; exact hnum l t e hn
      | ok n => rw [hn] at he; cases he
  have hspec : ∀ t e, specification t = .error e → e ∈ [.ub, .formatError, .outOfRange, .invalidArgument] := by
    intro t e he
    unfold specification at he
    split at he
    · cases he; simp
    · simp only [bind, Except.bind] at he
      split at he
      · rename_i hx
        cases he
        rcases hpart _ _ _ hx with rfl | rfl <;> simp
      · split at he
        · rename_i hx
          cases he
          unfold pointPart at hx
          split at hx
          · rcases hpart _ _ _ hx with rfl | rfl <;> simp
          · cases hx
        · cases he
  have harg : ∀ i (k : Nat) e, (argument args i).map (·, k) = .error e → e = .ub := by
    intro i k e he
    unfold argument at he
    cases hx : args[i]? with
    | none => rw [hx] at he; cases he; rfl
    | some a => rw [hx] at he; cases he
  have hfor : ∀ i (k : Nat) t e, (formattedArg args i t).map (·, k) = .error e →
      e ∈ [.ub, .formatError, .outOfRange, .invalidArgument] := by
    intro i k t e he
    unfold formattedArg at he
    cases hx : specification t with
    | error e' => rw [hx] at he; cases he; exact hspec t e hx
    | ok s =>
      rw [hx] at he
      simp only [bind, Except.bind] at he
      unfold argument at he
      cases hy : args[i]? with
      | none => rw [hy] at he; cases he; simp
      | some a => rw [hy] at he; cases he
  unfold hole at he
  simp only at he
  split at he
  · split at he
    · cases he; simp
    · rename_i e' _ hx
      cases he
      rcases hnum _ _ _ hx with rfl | rfl <;> simp
    · split at he
      · cases he; simp
      · split at he
        · rw [harg _ _ _ he]; simp
        · split at he
          · exact hfor _ _ _ _ he
          · cases he
  · split at he
    · exact hfor _ _ _ _ he
    · split at he
      · cases he; simp
      · split at he <;> (rw [harg _ _ _ he]; simp)

/-- C115. Whatever the template and the arguments, `Format` returns, throws `FormatError`, `out_of_range` or
`invalid_argument`, or is undefined; it always ends. -/
theorem C115_kinds (args : List Str) (hl : args.length < 2 ^ 63)
    (ha : ∀ a ∈ args, (∀ c ∈ a, Shape c.data) ∧ a.length < npos) (t : Str) (ht : ∀ c ∈ t, Shape c.data) (e : Err)
    (h : format t args = .error e) : e ∈ [.ub, .formatError, .outOfRange, .invalidArgument] := by
  obtain ⟨items, left, h1, h2, h3⟩ := items_exist t
  rw [h1, C115_exact args hl ha items left h2 h3 (fun c hc => ht c (by rw [h1]; exact List.mem_append_left _ hc))] at h
  have key : ∀ (items : List Item) (k : Nat), outcome args left k items = .error e →
      e ∈ [.ub, .formatError, .outOfRange, .invalidArgument] := by
    intro items
    induction items with
    | nil =>
      intro k h
      unfold outcome at h
      split at h
      · cases h
      · cases h; simp
    | cons i items ih =>
      intro k h
      cases i with
      | char c =>
        simp only [outcome] at h
        cases ho : outcome args left k items with
        | error e' => rw [ho] at h; cases h; exact ih k ho
        | ok t => rw [ho] at h; cases h
      | bracket c =>
        simp only [outcome] at h
        cases ho : outcome args left k items with
        | error e' => rw [ho] at h; cases h; exact ih k ho
        | ok t => rw [ho] at h; cases h
      | hole b =>
        simp only [outcome, bind, Except.bind] at h
        cases hx : hole args k b with
        | error e' => rw [hx] at h; cases h; exact hole_kinds args k b e hx
        | ok x =>
          rw [hx] at h
          simp only at h
          cases ho : outcome args left x.2 items with
          | error e' => rw [ho] at h; cases h; exact ih x.2 ho
          | ok t => rw [ho] at h; cases h
  exact key items 0 h

/-- C115, what is undefined, exactly, for a placeholder and at least one argument: a colon with nothing after it (with or without a valid
index before it), a plain placeholder beyond the last of several arguments, and a valid index with a valid specification after as many
plain placeholders as there are arguments. -/
theorem C115_undefined (args : List Str) (hne : args ≠ []) (k : Nat) (h : Str) :
    hole args k h = .error .ub ↔
      h = c!":" ∨
      (h.takeWhile anyDigit = [] ∧ h.head? ≠ some ⟨b!":"⟩ ∧ 1 < args.length ∧ args.length ≤ k) ∨
      ∃ i, h.takeWhile anyDigit ≠ [] ∧ number (2 ^ 64) (h.takeWhile anyDigit) = .ok i ∧ i < args.length ∧
        (h.dropWhile anyDigit = c!":" ∨
          ∃ s t, h.dropWhile anyDigit = ⟨b!":"⟩ :: t ∧ specification t = .ok s ∧ args.length ≤ k) := by
  have hpos : 0 < args.length := List.length_pos_iff.mpr hne
  have hnum : ∀ l t, number l t ≠ .error .ub := by
    intro l t he
    unfold number at he
    simp only at he
    split at he
    · cases he
    · split at he <;> cases he
  have hpart : ∀ l t, numberPart l t ≠ .error .ub := by
    intro l t he
    unfold numberPart at he
    split at he
    · cases he
    · cases hn : number l t with
      | error e' => rw [hn] at he; cases he; exact hnum l t hn
      | ok n => rw [hn] at he; cases he
  have hspec : ∀ t, specification t = .error .ub ↔ t = [] := by
    intro t
    constructor
    · intro he
      unfold specification at he
      split at he
      · assumption
      · simp only [bind, Except.bind] at he
        split at he
        · rename_i hx
          cases he
          exact absurd hx (hpart _ _)
        · split at he
          · rename_i hx
            cases he
            unfold pointPart at hx
            split at hx
            · exact absurd hx (hpart _ _)
            · cases hx
          · cases he
    · rintro rfl; rfl
  have harg : ∀ i (k : Nat), (argument args i).map (·, k) = .error .ub ↔ args.length ≤ i := by
    intro i k
    unfold argument
    by_cases hi : i < args.length
    · rw [List.getElem?_eq_getElem hi]
      simp only [Except.map, reduceCtorEq, false_iff]
      omega
    · rw [List.getElem?_eq_none (by omega)]
      simp only [Except.map, true_iff]
      omega
  have hfor : ∀ i (k : Nat) t, (formattedArg args i t).map (·, k) = .error .ub ↔
      t = [] ∨ ∃ s, specification t = .ok s ∧ args.length ≤ i := by
    intro i k t
    rw [← hspec t, ← harg i k]
    unfold formattedArg
    cases hx : specification t with
    | error e => simp [Except.map, bind, Except.bind]
    | ok s =>
      cases hy : argument args i <;> simp [Except.map, bind, Except.bind, pure, Except.pure]
  have hcolon : h.takeWhile anyDigit ≠ [] → h ≠ c!":" := by
    rintro hd rfl
    exact hd (by decide +kernel)
  unfold hole
  simp only
  by_cases hd : h.takeWhile anyDigit = []
  · rw [if_neg (by simp [hd])]
    simp only [hd, ne_eq, not_true_eq_false, false_and, exists_const, or_false, true_and]
    by_cases hc : h.head? = some ⟨b!":"⟩
    · rw [if_pos hc, hfor]
      have e := head_colon h hc
      constructor
      · rintro (ht | ⟨s, _, hx⟩)
        · rw [ht] at e; exact .inl e
        · omega
      · rintro (rfl | ⟨hx, _⟩)
        · exact .inl rfl
        · exact absurd hc hx
    · rw [if_neg hc, if_neg (by omega)]
      have hne' : h ≠ c!":" := by rintro rfl; exact hc rfl
      by_cases h1 : args.length = 1
      · rw [if_pos h1, harg]
        simp only [hne', false_or, hc, not_false_eq_true, true_and]
        omega
      · rw [if_neg h1, harg]
        simp only [hne', false_or, hc, not_false_eq_true, true_and]
        omega
  · rw [if_pos hd]
    simp only [hcolon hd, hd, false_or, false_and, ne_eq, not_false_eq_true, true_and]
    cases hn : number (2 ^ 64) (h.takeWhile anyDigit) with
    | error e =>
      have : e ≠ .ub := by rintro rfl; exact hnum _ _ hn
      cases e <;> simp_all
    | ok i =>
      simp only [hne, not_false_eq_true, true_and, Except.ok.injEq, exists_eq_left']
      by_cases hi : args.length ≤ i
      · rw [if_pos hi]
        simp only [Except.error.injEq, reduceCtorEq, false_iff]
        rintro ⟨h1, _⟩
        omega
      · rw [if_neg hi]
        cases hr : h.dropWhile anyDigit with
        | nil =>
          rw [if_pos rfl, harg]
          constructor
          · intro hx; omega
          · rintro ⟨_, hx | ⟨s, t, hx, _⟩⟩ <;> cases hx
        | cons c r =>
          rw [if_neg (by simp)]
          simp only [List.head?_cons, Option.some.injEq, List.tail_cons]
          by_cases hcc : c = ⟨b!":"⟩
          · rw [if_pos hcc, hfor]
            subst hcc
            constructor
            · rintro (rfl | ⟨s, hs, hx⟩)
              · exact ⟨by omega, .inl rfl⟩
              · exact ⟨by omega, .inr ⟨s, r, rfl, hs, hx⟩⟩
            · rintro ⟨_, hx | ⟨s, t, hx, hs, hk⟩⟩
              · exact .inl (List.cons.inj hx).2
              · cases hx; exact .inr ⟨s, hs, hk⟩
          · rw [if_neg hcc]
            simp only [reduceCtorEq, false_iff]
            rintro ⟨_, hx | ⟨s, t, hx, _⟩⟩
            · exact hcc (List.cons.inj hx).1
            · exact hcc (List.cons.inj hx).1

example : hole [c!"a", c!"b"] 2 c!"" = .error .ub ∧ hole [c!"a", c!"b"] 2 c!"1:>9" = .error .ub ∧
    hole [c!"a", c!"b"] 0 c!"1:" = .error .ub ∧ hole [c!"a", c!"b"] 2 c!"7:" = .error .formatError := by decide +kernel

/-- C115. Templates without placeholders do not look at the arguments: doubling the brackets of a text and formatting it, with any
arguments or none, gives the text back. -/
theorem C115_no_holes (t : Str) (args : List Str) (hl : args.length < 2 ^ 63)
    (ha : ∀ a ∈ args, (∀ c ∈ a, Shape c.data) ∧ a.length < npos) (ht : ∀ c ∈ t, Shape c.data) :
    format (doubleBrackets t) args = .ok t := by
  let item : Chr → Item := fun c => if c = ⟨b!"{"⟩ ∨ c = ⟨b!"}"⟩ then .bracket c else .char c
  have e : (t.map item).flatMap Item.written = doubleBrackets t := by
    unfold doubleBrackets
    rw [List.flatMap_map]
    congr 1
    funext c
    simp only [item]
    split <;> rfl
  have hp : ∀ i ∈ t.map item, i.Proper := by
    intro i hi
    obtain ⟨c, _, rfl⟩ := List.mem_map.1 hi
    simp only [item]
    split
    · assumption
    · rename_i h; exact ⟨fun x => h (.inl x), fun x => h (.inr x)⟩
  have hs : ∀ c ∈ (t.map item).flatMap Item.written, Shape c.data := by
    intro c hc
    rw [e] at hc
    unfold doubleBrackets at hc
    obtain ⟨d, hd, hc⟩ := List.mem_flatMap.1 hc
    have : c = d := by
      split at hc <;> simpa using hc
    rw [this]; exact ht d hd
  have := C115_exact args hl ha (t.map item) [] hp (.inl rfl) hs
  rw [List.append_nil, e] at this
  rw [this]
  clear this hs hp e ht
  induction t with
  | nil => rfl
  | cons c t ih =>
    rw [List.map_cons]
    by_cases hc : c = ⟨b!"{"⟩ ∨ c = ⟨b!"}"⟩
    · rw [show item c = .bracket c from if_pos hc, outcome, ih]; rfl
    · rw [show item c = .char c from if_neg hc, outcome, ih]; rfl

example : format c!"{{}}" [] = .ok c!"{}" ∧ format c!"{}" [] = .error .formatError := by decide +kernel

/-- C115 fails for digits of other scripts: they start an index or a width, but cannot be read, and `invalid_argument` leaves the
function. -/
theorem C115_digits_fails : format c!"{٣}" [c!"a"] = .error .invalidArgument ∧
    format c!"{:٣}" [c!"a"] = .error .invalidArgument ∧ format c!"{:.٣f}" [c!"a"] = .error .invalidArgument := by
  decide +kernel

/-- C115 fails for wrong placeholders, which are not reported: text after an index makes the placeholder vanish, a word is taken for a
plain placeholder, and what follows a specification is ignored. -/
theorem C115_accepts_fails : format c!"[{0x}]" [c!"a"] = .ok c!"[]" ∧ format c!"[{name}]" [c!"a"] = .ok c!"[a]" ∧
    format c!"[{:d?!}]" [c!"a"] = .ok c!"[a]" := by decide +kernel

end Caitlyn
