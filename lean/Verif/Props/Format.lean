import Verif.Proofs.FormatSafe

/-!
# Properties C28-C35: `String::Format`

Arguments are given by the texts they are converted to. Hypothesis `args.length < 2 ^ 63` holds for every
argument pack. `Shape c.data` says that the character `c` is one UTF-8 character other than NUL.
-/

namespace Caitlyn
open Caitlyn.Spec Format

/-- What the lemmas give for a template made of good pieces. -/
theorem format_good (args : List Str) (hl : args.length < 2 ^ 63) (hne : args ≠ [])
    (ha : ∀ a ∈ args, ∀ c ∈ a, Shape c.data) (ps : List Piece) (hp : ∀ p ∈ ps, GoodPiece args p)
    (hk : args.length = 1 ∨ autos ps ≤ args.length) :
    format (ps.flatMap Piece.written) args = .ok (render args 0 ps) := by
  obtain ⟨n, h⟩ := format_pieces args hl hne [] ps hp hk
  rw [List.append_nil] at h
  rw [h]
  simp only [loop, bind, Except.bind, List.append_nil]
  exact Str.ofStdString_str _ (render_shape args ha ps 0 hp)

theorem render_text (args : List Str) : ∀ (t : Str) (k : Nat), render args k (t.map Piece.text) = t
  | [], _ => rfl
  | c :: t, k => by rw [List.map_cons, render, render_text args t k]

theorem autos_text : ∀ t : Str, autos (t.map Piece.text) = 0
  | [] => rfl
  | _ :: t => autos_text t

/-! ## C28, C29 -/

/-- The text with every curly bracket doubled. -/
def doubleBrackets (t : Str) : Str :=
  t.flatMap fun c => if c = ⟨b!"{"⟩ ∨ c = ⟨b!"}"⟩ then [c, c] else [c]

/-- C29. Doubling the brackets of a text and formatting it gives the text back. -/
theorem C29_doubled_brackets (t : Str) (args : List Str) (hl : args.length < 2 ^ 63) (hne : args ≠ [])
    (ht : ∀ c ∈ t, Shape c.data) : format (doubleBrackets t) args = .ok t := by
  obtain ⟨n, h⟩ := format_pieces args hl hne [] (t.map Piece.text) (by
    intro p hp
    obtain ⟨c, hc, rfl⟩ := List.mem_map.mp hp
    exact ht c hc) (.inr (by rw [autos_text]; omega))
  rw [List.append_nil, List.flatMap_map] at h
  have e : t.flatMap (fun a => (Piece.text a).written) = doubleBrackets t := rfl
  rw [e] at h
  rw [h, render_text]
  simp only [loop, bind, Except.bind, List.append_nil]
  exact Str.ofStdString_str _ ht

example : format c!"{{}} a {{é}}}}" [c!"x"] = .ok c!"{} a {é}}" := by decide +kernel

/-- C28. A text without curly brackets is unchanged. -/
theorem C28_plain_text (t : Str) (args : List Str) (hl : args.length < 2 ^ 63) (hne : args ≠ [])
    (ht : ∀ c ∈ t, Shape c.data) (hb : ⟨b!"{"⟩ ∉ t ∧ ⟨b!"}"⟩ ∉ t) : format t args = .ok t := by
  have h := C29_doubled_brackets t args hl hne ht
  have e : doubleBrackets t = t := by
    unfold doubleBrackets
    clear h hl hne ht
    induction t with
    | nil => rfl
    | cons c t ih =>
      rw [List.flatMap_cons, ih ⟨fun h => hb.1 (by simp [h]), fun h => hb.2 (by simp [h])⟩, if_neg (by
        rintro (rfl | rfl)
        · exact hb.1 (by simp)
        · exact hb.2 (by simp))]
      rfl
  rwa [e] at h

/-- C28, characters that are not UTF-8: a `Char` made of one invalid byte cannot pass through
`Format`. -/
theorem C28_invalid_char (args : List Str) : format [Chr.ofByte 0xFF] args = .error .runtimeError := by
  have h : loop args 2 [Chr.ofByte 0xFF] 0 = .ok [0xFF] := rfl
  unfold format
  show (loop args 2 [Chr.ofByte 0xFF] 0 >>= Str.ofStdString) = _
  rw [h]
  decide

example : format c!"plain 日本" [c!"x", c!"y"] = .ok c!"plain 日本" := by decide +kernel

/-! ## C30 -/

/-- C30. Literal text and `{}` placeholders, at most as many as arguments (any number when there is exactly
one argument): the placeholders become the arguments in order (`render`). -/
theorem C30_sequential (ps : List Piece) (args : List Str) (hl : args.length < 2 ^ 63) (hne : args ≠ [])
    (ha : ∀ a ∈ args, ∀ c ∈ a, Shape c.data)
    (hp : ∀ p ∈ ps, p = .auto ∨ ∃ c, p = .text c ∧ Shape c.data)
    (hk : args.length = 1 ∨ autos ps ≤ args.length) :
    format (ps.flatMap Piece.written) args = .ok (render args 0 ps) := by
  refine format_good args hl hne ha ps (fun p hpp => ?_) hk
  rcases hp p hpp with rfl | ⟨c, rfl, hc⟩
  · trivial
  · exact hc

/-- C30, the plain case: exactly as many placeholders as arguments, separated by bracket-free
texts. -/
theorem C30_interleaved (first : Str) (items : List (Str × Str)) (h2 : items ≠ [])
    (hl : items.length < 2 ^ 63)
    (hs : (∀ c ∈ first, Shape c.data ∧ c ≠ ⟨b!"{"⟩ ∧ c ≠ ⟨b!"}"⟩) ∧
      ∀ i ∈ items, (∀ c ∈ i.1, Shape c.data) ∧ ∀ c ∈ i.2, Shape c.data ∧ c ≠ ⟨b!"{"⟩ ∧ c ≠ ⟨b!"}"⟩) :
    format (first ++ items.flatMap fun i => c!"{}" ++ i.2) (items.map Prod.fst) =
      .ok (first ++ items.flatMap fun i => i.1 ++ i.2) := by
  have lit : ∀ t : Str, (∀ c ∈ t, Shape c.data ∧ c ≠ ⟨b!"{"⟩ ∧ c ≠ ⟨b!"}"⟩) →
      (t.map Piece.text).flatMap Piece.written = t := by
    intro t ht
    induction t with
    | nil => rfl
    | cons c t ih =>
      have := ht c (by simp)
      rw [List.map_cons, List.flatMap_cons, ih (fun d hd => ht d (by simp [hd]))]
      simp [Piece.written, this.2.1, this.2.2]
  have wr : (first.map Piece.text ++ items.flatMap fun i => Piece.auto :: i.2.map Piece.text).flatMap Piece.written =
      first ++ items.flatMap fun i => c!"{}" ++ i.2 := by
    rw [List.flatMap_append, lit first hs.1, List.flatMap_assoc]
    congr 1
    have : ∀ i ∈ items, (Piece.auto :: i.2.map Piece.text).flatMap Piece.written = c!"{}" ++ i.2 := by
      intro i hi
      rw [List.flatMap_cons, lit i.2 (hs.2 i hi).2]; rfl
    clear hs hl h2
    induction items with
    | nil => rfl
    | cons i is ih =>
      have e : ∀ (f : Str × Str → Str), (i :: is).flatMap f = f i ++ is.flatMap f := fun f => List.flatMap_cons
      rw [e, e, this i (by simp), ih (fun j hj => this j (by simp [hj]))]
  have au : autos (first.map Piece.text ++ items.flatMap fun i => Piece.auto :: i.2.map Piece.text) = items.length := by
    have app : ∀ (t : Str) (ps : List Piece), autos (t.map Piece.text ++ ps) = autos ps := by
      intro t ps
      induction t with
      | nil => rfl
      | cons c t ih => exact ih
    rw [app]
    clear hs wr hl h2
    induction items with
    | nil => rfl
    | cons i is ih =>
      rw [List.flatMap_cons, List.cons_append]
      show autos (i.2.map Piece.text ++ _) + 1 = _
      rw [app, ih, List.length_cons]
  have rapp : ∀ (args : List Str) (t : Str) (k : Nat) (ps : List Piece),
      render args k (t.map Piece.text ++ ps) = t ++ render args k ps := by
    intro args t k ps
    induction t with
    | nil => rfl
    | cons c t ih =>
      rw [List.map_cons, List.cons_append, render, ih]; rfl
  have re : ∀ (done todo : List (Str × Str)), done ++ todo = items →
      render (items.map Prod.fst) done.length (todo.flatMap fun i => Piece.auto :: i.2.map Piece.text) =
        todo.flatMap fun i => i.1 ++ i.2 := by
    intro done todo
    induction todo generalizing done with
    | nil => intro _; rfl
    | cons i is ih =>
      intro hd
      rw [List.flatMap_cons, List.cons_append, render, rapp]
      have := ih (done ++ [i]) (by simp [hd])
      rw [List.length_append, List.length_cons, List.length_nil, Nat.zero_add] at this
      rw [this, List.flatMap_cons]
      have hg : (items.map Prod.fst).getD (if (items.map Prod.fst).length = 1 then 0 else done.length) [] = i.1 := by
        rw [← hd]
        by_cases h1 : (List.map Prod.fst (done ++ i :: is)).length = 1
        · have hd0 : done = [] := by
            cases done with
            | nil => rfl
            | cons => simp at h1
          rw [if_pos h1, hd0]; simp
        · rw [if_neg h1]; simp
      rw [hg]; simp
  have := C30_sequential (first.map Piece.text ++ items.flatMap fun i => Piece.auto :: i.2.map Piece.text)
    (items.map Prod.fst) (by simpa using hl) (by simpa using h2) (by
      intro a haa
      obtain ⟨i, hi, rfl⟩ := List.mem_map.mp haa
      exact (hs.2 i hi).1) (by
      intro p hp
      rcases List.mem_append.mp hp with hp | hp
      · obtain ⟨c, hc, rfl⟩ := List.mem_map.mp hp
        exact .inr ⟨c, rfl, (hs.1 c hc).1⟩
      · obtain ⟨i, hi, hp⟩ := List.mem_flatMap.mp hp
        rcases List.mem_cons.mp hp with rfl | hp
        · exact .inl rfl
        · obtain ⟨c, hc, rfl⟩ := List.mem_map.mp hp
          exact .inr ⟨c, rfl, ((hs.2 i hi).2 c hc).1⟩) (by rw [au]; simp)
  rw [wr, rapp] at this
  rw [this]
  exact congrArg (fun t => Except.ok (first ++ t)) (re [] items rfl)

example : format c!"{}, {}!" [c!"Hello", c!"World"] = .ok c!"Hello, World!" ∧
    format c!"{}{}{}" [c!"ab"] = .ok c!"ababab" := by decide +kernel

/-! ## C31 -/

/-- C31. Literal text, `{}` and `{i}` with `i` below the number of arguments: `{i}` becomes
argument `i`. -/
theorem C31_indexed (ps : List Piece) (args : List Str) (hl : args.length < 2 ^ 63) (hne : args ≠ [])
    (ha : ∀ a ∈ args, ∀ c ∈ a, Shape c.data)
    (hp : ∀ p ∈ ps, p = .auto ∨ (∃ c, p = .text c ∧ Shape c.data) ∨ ∃ i, p = .index i ∧ i < args.length)
    (hk : args.length = 1 ∨ autos ps ≤ args.length) :
    format (ps.flatMap Piece.written) args = .ok (render args 0 ps) := by
  refine format_good args hl hne ha ps (fun p hpp => ?_) hk
  rcases hp p hpp with rfl | ⟨c, rfl, hc⟩ | ⟨i, rfl, hi⟩
  · trivial
  · exact hc
  · exact hi

/-- C31. An index not below the number of arguments, however large, raises `FormatError`, whatever
follows it. -/
theorem C31_index_too_large (ps : List Piece) (args : List Str) (hl : args.length < 2 ^ 63) (hne : args ≠ [])
    (hp : ∀ p ∈ ps, p = .auto ∨ (∃ c, p = .text c ∧ Shape c.data) ∨ ∃ i, p = .index i ∧ i < args.length)
    (hk : args.length = 1 ∨ autos ps ≤ args.length) (i : Nat) (hi : args.length ≤ i) (rest : Str) :
    format (ps.flatMap Piece.written ++ ((Piece.index i).written ++ rest)) args = .error .formatError := by
  obtain ⟨n, h⟩ := format_pieces args hl hne ((Piece.index i).written ++ rest) ps (fun p hpp => by
    rcases hp p hpp with rfl | ⟨c, rfl, hc⟩ | ⟨i, rfl, hi⟩
    · trivial
    · exact hc
    · exact hi) hk
  rw [h]
  have := loop_hole args (n + ((Piece.index i).written ++ rest).length) (decimal (i : Int)) rest
    (if args.length = 1 then 0 else autos ps) (fun hm => (digit_ne _ _ hm).1 rfl)
    (by have := head_decimal i []; rwa [List.append_nil] at this)
  simp only [Piece.written, List.cons_append, List.nil_append, List.append_assoc] at this ⊢
  have h0 : 0 < args.length := List.length_pos_iff.mpr hne
  rw [this, placeholder_index, if_pos (by unfold wsub twoPow64; omega)]
  rfl

example : format c!"{1} {0} {1}" [c!"a", c!"b"] = .ok c!"b a b" ∧
    format c!"{2}" [c!"a", c!"b"] = .error .formatError ∧
    format c!"{99999999999999999999999}" [c!"a", c!"b"] = .error .formatError := by decide +kernel

/-! ## C32 -/

/-- C32 is false as stated: `{1:>3}` formats the first argument. -/
theorem C32_fails : format c!"{1:>3}" [c!"a", c!"b"] = .ok c!"  a" := by decide +kernel

/-- C32, what it does instead: `{i:…}` formats the argument whose number is the number of `{}`
placeholders before it (the first one if there is one argument). -/
theorem C32_uses_counter (ps : List Piece) (args : List Str) (hl : args.length < 2 ^ 63) (hne : args ≠ [])
    (ha : ∀ a ∈ args, ∀ c ∈ a, Shape c.data)
    (hp : ∀ p ∈ ps, p = .auto ∨ ∃ c, p = .text c ∧ Shape c.data)
    (hk : args.length = 1 ∨ autos ps < args.length)
    (i : Nat) (hi : i < args.length) (fill : Option Chr) (hf : ∀ f, fill = some f → Shape f.data ∧ f ≠ ⟨b!"}"⟩)
    (a : Alignment) (w : Nat) (hw : w < 2 ^ 64) :
    format (ps.flatMap Piece.written ++ (c!"{" ++ decimal i ++ c!":" ++ alignText fill a w ++ c!"}")) args =
      .ok (render args 0 ps ++ pad (fill.getD ⟨b!" "⟩) a w
        (args.getD (if args.length = 1 then 0 else autos ps) [])) := by
  have hgood : ∀ p ∈ ps, GoodPiece args p := by
    intro p hpp
    rcases hp p hpp with rfl | ⟨c, rfl, hc⟩
    · trivial
    · exact hc
  obtain ⟨n, h⟩ := format_pieces args hl hne (c!"{" ++ decimal i ++ c!":" ++ alignText fill a w ++ c!"}") ps hgood
    (hk.imp_right (Nat.le_of_lt))
  rw [h]
  clear h
  have h0 : 0 < args.length := List.length_pos_iff.mpr hne
  have hlen : 1 ≤ (c!"{" ++ decimal i ++ c!":" ++ alignText fill a w ++ c!"}").length := by simp
  generalize hm : n + (c!"{" ++ decimal i ++ c!":" ++ alignText fill a w ++ c!"}").length = m
  obtain ⟨m', rfl⟩ : ∃ m', m = m' + 1 := ⟨m - 1, by omega⟩
  have hh := loop_hole args (m' + 1) (decimal (i : Int) ++ ⟨b!":"⟩ :: alignText fill a w) []
    (if args.length = 1 then 0 else autos ps) (by
      intro hmem
      rcases List.mem_append.mp hmem with hmem | hmem
      · exact (digit_ne _ _ hmem).1 rfl
      · rcases List.mem_cons.mp hmem with e | hmem
        · exact absurd e (by decide)
        · exact alignText_no_close fill a w (fun f hff => (hf f hff).2) hmem) (head_decimal _ _)
  have e : (c!"{" ++ decimal i ++ c!":" ++ alignText fill a w ++ c!"}" : Str) =
      ⟨b!"{"⟩ :: ((decimal (i : Int) ++ ⟨b!":"⟩ :: alignText fill a w) ++ ⟨b!"}"⟩ :: []) := by simp
  rw [e, hh, placeholder_index_colon _ _ _ _ _ _ hi hl hw]
  have hlt : (if args.length = 1 then 0 else autos ps) < args.length := by
    split
    · omega
    · rcases hk with h | h
      · contradiction
      · exact h
  generalize (if args.length = 1 then 0 else autos ps) = j at hlt ⊢
  have hv : vecGet args j = .ok (args.getD j []) := by
    unfold vecGet
    rw [List.getElem?_eq_getElem hlt, List.getD_eq_getElem?_getD, List.getElem?_eq_getElem hlt]; rfl
  rw [hv]
  simp only [Except.map, bind, Except.bind, loop, pure, Except.pure, List.append_nil]
  rw [← Str.str_append]
  apply Str.ofStdString_str
  intro c hc
  rcases List.mem_append.mp hc with hc | hc
  · exact render_shape args ha ps 0 hgood c hc
  · refine pad_shape _ _ _ _ ?_ ?_ c hc
    · cases fill with
      | none => exact .one _ (by decide) (by decide)
      | some f => exact (hf f rfl).1
    · rw [List.getD_eq_getElem?_getD, List.getElem?_eq_getElem hlt]
      exact ha _ (List.getElem_mem hlt)

/-- C32. Partial: `{i:…}` formats argument `i` when exactly `i` placeholders `{}` precede it (or there is
one argument). Missing: all other indices (`C32_fails`). -/
theorem C32_indexed_spec_partial (ps : List Piece) (args : List Str) (hl : args.length < 2 ^ 63) (hne : args ≠ [])
    (ha : ∀ a ∈ args, ∀ c ∈ a, Shape c.data)
    (hp : ∀ p ∈ ps, p = .auto ∨ ∃ c, p = .text c ∧ Shape c.data)
    (i : Nat) (hi : i < args.length) (hauto : args.length = 1 ∨ autos ps = i)
    (fill : Option Chr) (hf : ∀ f, fill = some f → Shape f.data ∧ f ≠ ⟨b!"}"⟩)
    (a : Alignment) (w : Nat) (hw : w < 2 ^ 64) :
    format (ps.flatMap Piece.written ++ (c!"{" ++ decimal i ++ c!":" ++ alignText fill a w ++ c!"}")) args =
      .ok (render args 0 ps ++ pad (fill.getD ⟨b!" "⟩) a w (args.getD i [])) := by
  have := C32_uses_counter ps args hl hne ha hp (by
    rcases hauto with h | h
    · exact .inl h
    · exact .inr (h ▸ hi)) i hi fill hf a w hw
  have e : (if args.length = 1 then 0 else autos ps) = i := by
    split
    · omega
    · rcases hauto with h | h
      · contradiction
      · exact h
  rwa [e] at this

example : format c!"{}{1:>3}" [c!"a", c!"b"] = .ok c!"a  b" := by decide +kernel

/-! ## C33 -/

/-- C33. A template of literal text, placeholders and alignment specifications `{:f<w}`, `{:>w}` and so on
renders each specification as the first argument padded (`pad`). -/
theorem C33_alignment (ps : List Piece) (args : List Str) (hl : args.length < 2 ^ 63) (hne : args ≠ [])
    (ha : ∀ a ∈ args, ∀ c ∈ a, Shape c.data)
    (hp : ∀ p ∈ ps, (∃ c, p = .text c ∧ Shape c.data) ∨ p = .auto ∨ ∃ fill a w, p = .aligned fill a w ∧
      (∀ f, fill = some f → Shape f.data ∧ f ≠ ⟨b!"}"⟩) ∧ w < 2 ^ 64)
    (hk : args.length = 1 ∨ autos ps ≤ args.length) :
    format (ps.flatMap Piece.written) args = .ok (render args 0 ps) := by
  refine format_good args hl hne ha ps (fun p hpp => ?_) hk
  rcases hp p hpp with ⟨c, rfl, hc⟩ | rfl | ⟨fill, a, w, rfl, h⟩
  · exact hc
  · trivial
  · exact h

/-- C33, what `pad` is: the result has max(width, length) characters and is the value with only fill
characters around it, all on the right (left alignment), all on the left (right alignment), or
split with the extra one on the right (centre). -/
theorem C33_pad (fill : Chr) (a : Alignment) (w : Nat) (s : Str) :
    (pad fill a w s).length = max w s.length ∧
    ∃ l r, pad fill a w s = List.replicate l fill ++ s ++ List.replicate r fill ∧
      (a = .left → l = 0) ∧ (a = .right → r = 0) ∧ (a = .center → r = l ∨ r = l + 1) := by
  have hlen : ∀ l r, (List.replicate l fill ++ s ++ List.replicate r fill).length = l + s.length + r := by
    intro l r; simp; omega
  cases a with
  | left =>
    have e : pad fill .left w s = List.replicate 0 fill ++ s ++ List.replicate (w - s.length) fill := by simp [pad]
    refine ⟨by rw [e, hlen]; omega, 0, _, e, by simp, by simp, by simp⟩
  | right =>
    have e : pad fill .right w s = List.replicate (w - s.length) fill ++ s ++ List.replicate 0 fill := by simp [pad]
    refine ⟨by rw [e, hlen]; omega, _, 0, e, by simp, by simp, by simp⟩
  | center =>
    refine ⟨?_, _, _, rfl, by simp, by simp, fun _ => by omega⟩
    show (List.replicate _ fill ++ s ++ List.replicate _ fill).length = _
    rw [hlen]; omega

example : format c!"[{:>5}|{:*^6}|{:<4}|{:^1}]" [c!"abc"] = .ok c!"[  abc|*abc**|abc |abc]" := by decide +kernel

/-! ## C34 -/

/-- C34 is false as stated: an empty specification, more `{}` than (two or more) arguments, and an
index without any argument all read outside a container. -/
theorem C34_fails : format c!"{:}" [c!"a"] = .error .ub ∧
    format c!"{}{}{}" [c!"a", c!"b"] = .error .ub ∧
    format c!"{0}" [] = .error .ub := by decide +kernel

/-- C34. Partial: with at least one argument, valid characters, no `:` directly before a `}`, and no more
`{` than arguments (any number if there is one argument), `Format` returns or throws for
every template. Missing: the templates of `C34_fails`. -/
theorem C34_no_ub_partial (t : Str) (args : List Str) (hl : args.length < 2 ^ 63) (hne : args ≠ [])
    (ha : ∀ a ∈ args, ∀ c ∈ a, Shape c.data) (ht : ∀ c ∈ t, Shape c.data) (hc : ¬ Occurs c!":}" t)
    (hk : args.length = 1 ∨ t.count ⟨b!"{"⟩ ≤ args.length) :
    format t args ≠ .error .ub ∧ format t args ≠ .error .fuel := by
  have : Safe (fun _ => True) (format t args) := by
    unfold format
    refine Safe.bind (safe_loop args ha hl hne (t.length + 1) t 0 ht hc (Nat.lt_succ_self _) (by
      rcases hk with h | h
      · exact .inl ⟨h, rfl⟩
      · exact .inr (by omega))) fun out ⟨s, hs, e⟩ => ?_
    rw [e, Str.ofStdString_str s hs]; trivial
  exact ⟨this.not_ub, this.not_fuel⟩

example : ¬ Occurs c!":}" c!"{:x.{q" ∧ format c!"{:x.{q" [c!"a"] = .error .formatError := by
  refine ⟨?_, by decide +kernel⟩
  rw [occurs_iff_infix]
  decide

/-! ## C35 -/

/-- C35 is false as stated: an earlier placeholder can fail in another way first. -/
theorem C35_fails : format c!"{:99999999999999999999}{" [c!"a"] = .error .outOfRange := by decide +kernel

/-- C35. Partial: after any sequence of correct pieces, a `{` that is not doubled and never closed raises
`FormatError`. Missing: templates in which an earlier placeholder is itself wrong (`C35_fails`). -/
theorem C35_unclosed_partial (ps : List Piece) (args : List Str) (hl : args.length < 2 ^ 63) (hne : args ≠ [])
    (hp : ∀ p ∈ ps, GoodPiece args p) (hk : args.length = 1 ∨ autos ps ≤ args.length) (rest : Str)
    (h1 : rest.head? ≠ some ⟨b!"{"⟩) (h2 : ⟨b!"}"⟩ ∉ rest) :
    format (ps.flatMap Piece.written ++ ⟨b!"{"⟩ :: rest) args = .error .formatError := by
  obtain ⟨n, h⟩ := format_pieces args hl hne (⟨b!"{"⟩ :: rest) ps hp hk
  rw [h, loop, if_pos rfl, if_neg h1]
  simp only [search_open (⟨b!"{"⟩ :: rest) (by
    intro hm
    rcases List.mem_cons.mp hm with e | hm
    · exact absurd e (by decide)
    · exact h2 hm), if_true]
  rfl

/-- C35. Partial: after any sequence of correct pieces, a `}` that is not doubled raises
`FormatError`. -/
theorem C35_lone_close_partial (ps : List Piece) (args : List Str) (hl : args.length < 2 ^ 63) (hne : args ≠ [])
    (hp : ∀ p ∈ ps, GoodPiece args p) (hk : args.length = 1 ∨ autos ps ≤ args.length) (rest : Str)
    (h1 : rest.head? ≠ some ⟨b!"}"⟩) :
    format (ps.flatMap Piece.written ++ ⟨b!"}"⟩ :: rest) args = .error .formatError := by
  obtain ⟨n, h⟩ := format_pieces args hl hne (⟨b!"}"⟩ :: rest) ps hp hk
  rw [h, loop, if_neg (by decide), if_pos rfl, if_neg h1]
  rfl

example : format c!"a{}}" [c!"x"] = .error .formatError ∧ format c!"{}{0}{" [c!"x"] = .error .formatError := by
  decide +kernel

end Caitlyn
