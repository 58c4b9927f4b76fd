import Verif.Proofs.JsonErr

/-! # C53-C59: what `JsonDocument::Parse` does -/

namespace Caitlyn
open Spec JsonParser

variable {F : Type}

/-- A text as a program can have it: a `String` made from UTF-8 with fewer than `2^64 - 1` characters. -/
def Spec.Text (s : Str) : Prop := Shapes s ∧ s.length < npos

/-- Floating point numbers for the witnesses: one value. -/
def Spec.oneFloat : FloatOps Unit := ⟨fun _ => .ok (), fun _ => b!"0", fun _ => b!"0.000000", ()⟩

/-! ## C53 -/

/-- C53: parsing ends on every text: the bound on the depth of calls and iterations used by the model, twice the
length of the text plus two, is never reached. -/
theorem C53_terminates (ops : FloatOps F) (s : Str) : document ops s ≠ .error .fuel := by
  have h := parse_nf ops s
  unfold document
  cases hp : parse ops s with
  | error x => rw [hp] at h; intro hx; injection hx with hx; exact h hx
  | ok r =>
    obtain ⟨j, st⟩ := r
    simp only [ok_bind]
    split <;> simp [pure, Except.pure]

example : document oneFloat c!"{\"a\":[1,{}],\"b\":[[[" = .ok (.null, .invalidJson) ∧
    document oneFloat c!"{\"b\":[[}" = .ok (.null, .unexpectedCharacter) := ⟨rfl, rfl⟩

/-! ## C55 -/

/-- C55: if `Parse` returns, then either it reports an error and the root is Null, or it does not and the root is an
object. -/
theorem C55_root (ops : FloatOps F) (s : Str) (root : Json F) (e : JsonError) (h : document ops s = .ok (root, e)) :
    (e ≠ .noError ∧ root = .null) ∨ (e = .noError ∧ ∃ ms, root = .obj ms) := by
  have hnf := parse_nf ops s
  unfold document at h
  cases hp : parse ops s with
  | error x => rw [hp] at h; cases h
  | ok r =>
    obtain ⟨j, st⟩ := r
    rw [hp] at h hnf
    simp only [ok_bind] at h
    split at h
    · cases h; rename_i he; exact .inl ⟨he, rfl⟩
    · rename_i he
      injection h with h; injection h with h1 h2; subst h1; subst h2
      exact .inr ⟨rfl, hnf.2 (by simpa using he)⟩

/-- C55: an error recorded before a value, object or array is parsed is still recorded (possibly as another error)
afterwards. `n` is the bound on the depth; it is large enough in every call. -/
theorem C55_sticky (ops : FloatOps F) (s : Str) (n p : Nat) (e : JsonError) (hn : 2 * (s.length - p) + 2 ≤ n)
    (he : e ≠ .noError) (j : Json F) (st : PState) :
    (parseValue ops s n ⟨p, e⟩ = .ok (j, st) → st.err ≠ .noError) ∧
    (objectLoop ops s n ⟨p, e⟩ [] = .ok (j, st) → st.err ≠ .noError) ∧
    (arrayLoop ops s n ⟨p, e⟩ [] = .ok (j, st) → st.err ≠ .noError) := by
  obtain ⟨h1, h2, h3⟩ := nf_all ops s n
  refine ⟨fun h hx => he ?_, fun h hx => he ?_, fun h hx => he ?_⟩
  · have := h1 p e (by omega); rw [h] at this; exact this.2.1 hx
  · have := h2 p e [] (.obj _ (by simp) (by simp)) hn; rw [h] at this; exact this.1.2.1 hx
  · have := h3 p e [] (.arr _ (by simp)) hn; rw [h] at this; exact this.2.1 hx

example : document oneFloat c!"{\"a\":[1,x]}" = .ok (.null, .unexpectedCharacter) ∧
    document oneFloat c!"{\"a\":[1,2]}" = .ok (.obj [(c!"a", .arr [.int 1, .int 2])], .noError) := ⟨rfl, rfl⟩

/-! ## C56 -/

theorem document_of_parse {ops : FloatOps F} {s : Str} {j : Json F} :
    (∃ p, parse ops s = .ok (j, ⟨p, .noError⟩)) ↔ document ops s = .ok (j, .noError) := by
  unfold document
  constructor
  · rintro ⟨p, h⟩; rw [h]; rfl
  · intro h
    cases hp : parse ops s with
    | error x => rw [hp] at h; cases h
    | ok r =>
      obtain ⟨j', st⟩ := r
      rw [hp] at h
      simp only [ok_bind] at h
      split at h
      · rename_i he
        injection h with h; injection h with h1 h2; exact absurd h2 he
      · rename_i he
        injection h with h; injection h with h1 h2; subst h1
        obtain ⟨p, e⟩ := st
        simp only [ne_eq, Decidable.not_not] at he
        subst he
        exact ⟨p, rfl⟩

/-- C56, for ASCII texts: `Parse` accepts exactly the texts of the dialect, and the root is the tree the text
denotes. Missing: texts with other characters (see `C56_non_ascii_partial` and the `_fails` theorems). -/
theorem C56_ascii_partial (ops : FloatOps F) (s : Str) (hs : Ascii s) (hlen : s.length < npos) (j : Json F) :
    document ops s = .ok (j, .noError) ↔ Document ops true s j := by
  rw [← document_of_parse]
  exact ⟨fun ⟨p, h⟩ => parse_sound hs hlen ops h, parse_complete ops true s hlen fun _ => hs⟩

/-- C56, for all texts: a text of the dialect without the literals `true`, `false` and `null` is accepted and the
root is the tree it denotes. -/
theorem C56_non_ascii_partial (ops : FloatOps F) (s : Str) (hlen : s.length < npos) (j : Json F)
    (h : Document ops false s j) : document ops s = .ok (j, .noError) :=
  document_of_parse.mp (parse_complete ops false s hlen (fun h => by cases h) h)

/-- What a text denotes is unique. -/
theorem C56_unique (ops : FloatOps F) (s : Str) (hs : Ascii s) (hlen : s.length < npos) (j j' : Json F)
    (h : Document ops true s j) (h' : Document ops true s j') : j = j' := by
  have h := (C56_ascii_partial ops s hs hlen j).mpr h
  rw [(C56_ascii_partial ops s hs hlen j').mpr h'] at h
  injection h with h; injection h with h _; exact h.symm

/-- C56 fails: the literals are compared at a position in bytes, so that `{"é":true}` is rejected and a text that is
no JSON is accepted. -/
theorem C56_fails_literals :
    document oneFloat c!"{\"é\":true}" = .ok (.null, .unexpectedCharacter) ∧
    document oneFloat c!"{\"éééééétrue\":tooo}" = .ok (.obj [(c!"éééééétrue", .bool true)], .noError) := ⟨rfl, rfl⟩

/-- C56 fails: text after the object is accepted if it ends in `}`. -/
theorem C56_fails_trailing : document oneFloat c!"{} and more}" = .ok (.obj [], .noError) := rfl

/-- C56: what is accepted of RFC 8259's numbers: `01`, `1.2.3` and `+1` are. -/
theorem C56_fails_numbers :
    document oneFloat c!"{\"a\":01}" = .ok (.obj [(c!"a", .int 1)], .noError) ∧
    document oneFloat c!"{\"a\":1.2.3}" = .ok (.obj [(c!"a", .int 1)], .noError) ∧
    document oneFloat c!"{\"a\":+1}" = .ok (.obj [(c!"a", .float ())], .noError) := ⟨rfl, rfl, rfl⟩

theorem spaces_nil : Spaces [] := by simp [Spaces]

theorem headIs_brace : HeadIs (fun d => ¬ NumChar d) [chr 0x7D] := by
  intro c hc
  cases hc
  refine ⟨⟨0x7D, by decide, rfl⟩, ?_⟩
  rintro (h | h)
  · exact absurd ((digit_chr 0x7D).mp h) (by decide)
  · revert h; decide

theorem single_document {ops : FloatOps F} {lits : Bool} {key text : Str} {j : Json F} (hk : chr 0x22 ∉ key)
    (hv : Val ops lits (text ++ [chr 0x7D]) j [chr 0x7D]) : Document ops lits (single key text) (.obj [(key, j)]) := by
  refine ⟨[], _, [], _, spaces_nil, rfl, ?_, rfl, c!"{\"" ++ key ++ c!"\":" ++ text, [], spaces_nil, rfl⟩
  have := Val.object (ops := ops) (lits := lits) [] _ [(key, j)] [] spaces_nil
    (.last key [] [] [] (text ++ [chr 0x7D]) j [] hk spaces_nil spaces_nil spaces_nil hv)
  simpa [single, collapse, lastValue, chr] using this

example : Document oneFloat true (single c!"a" c!"-12") (.obj [(c!"a", .int (-12))]) := by
  refine single_document (by decide) (.number (chr 0x2D) c!"12" _ _ (.inr (.inl rfl)) ?_ headIs_brace ?_)
  · intro d hd
    simp only [List.mem_cons, List.not_mem_nil, or_false] at hd
    rcases hd with rfl | rfl
    · exact .inl ⟨0x31, by decide, by decide, rfl⟩
    · exact .inl ⟨0x32, by decide, by decide, rfl⟩
  · refine .int c!"-12" [] (-12) (.neg c!"12" (by decide) ?_) (by decide) (by decide) (by simp) (by unfold Floating; decide)
    intro d hd
    simp only [List.mem_cons, List.not_mem_nil, or_false] at hd
    rcases hd with rfl | rfl
    · exact ⟨0x31, by decide, by decide, rfl⟩
    · exact ⟨0x32, by decide, by decide, rfl⟩

/-! ## C54 -/

/-- C54, for well-formed texts: a text of the dialect is parsed without undefined behaviour or exception. Missing:
the texts outside the dialect; on some of them `Parse` reads beyond the end (`C54_fails_unterminated`). What happens on
each of them is `C116_exact`. -/
theorem C54_partial (ops : FloatOps F) (lits : Bool) (s : Str) (hlen : s.length < npos) (hs : lits = true → Ascii s)
    (j : Json F) (h : Document ops lits s j) : ∃ r, document ops s = .ok r :=
  ⟨_, document_of_parse.mp (parse_complete ops lits s hlen hs h)⟩

/-- C54 fails: on these texts `Parse` reads the character after the last one. -/
theorem C54_fails_unterminated :
    document oneFloat c!"{\"a\":{}" = .error .ub ∧ document oneFloat c!"   " = .error .ub ∧
    document oneFloat c!"{\"a\":\"b}" = .error .ub ∧ document oneFloat c!"{\"a\":\"b\\n\"}" = .error .ub :=
  ⟨rfl, rfl, rfl, rfl⟩

/-- C54: some texts make `Parse` throw instead of reporting an error: the escape writes a byte that is no UTF-8. -/
theorem C54_fails_throws : document oneFloat c!"{\"a\":\"\\u00ff \"}" = .error .runtimeError := rfl

/-! ## C57 -/

theorem Spec.StrBody.append {a b : Str} {x y : List UInt8} (ha : StrBody a x) (hb : StrBody b y) :
    StrBody (a ++ b) (x ++ y) := by
  induction ha with
  | nil => exact hb
  | plain c s bs h1 h2 _ ih => rw [List.append_assoc]; exact .plain c _ _ h1 h2 ih
  | escape c i b s bs h _ ih => exact .escape c i b _ _ h ih
  | unicode h₁ h₂ h₃ h₄ i neg n s bs h h' _ ih => exact .unicode h₁ h₂ h₃ h₄ i neg n _ _ h h' ih

theorem Spec.StrBody.plains : ∀ (s : Str), chr 0x22 ∉ s → chr 0x5C ∉ s → StrBody s (Str.str s)
  | [], _, _ => .nil
  | c :: s, h1, h2 => .plain c s _ (fun h => h1 (by simp [h])) (fun h => h2 (by simp [h]))
      (StrBody.plains s (fun h => h1 (by simp [h])) (fun h => h2 (by simp [h])))

theorem single_string (ops : FloatOps F) (key body : Str) (bs : List UInt8) (v : Str) (hk : chr 0x22 ∉ key)
    (hlen : (single key (chr 0x22 :: body ++ [chr 0x22])).length < npos) (hb : StrBody body bs)
    (hv : Str.ofStdString bs = .ok v) :
    document ops (single key (chr 0x22 :: body ++ [chr 0x22])) = .ok (.obj [(key, .str v)], .noError) := by
  refine C56_non_ascii_partial ops _ hlen _ (single_document hk ?_)
  rw [List.append_assoc]
  exact .string body bs v _ hb hv

/-- C57, for literals without backslash: the literal denotes its characters, and parses to them. Missing: literals
with escapes (see the `_fails` theorems). -/
theorem C57_plain_partial (ops : FloatOps F) (key body : Str) (hk : chr 0x22 ∉ key) (hs : Shapes body)
    (hq : chr 0x22 ∉ body) (hb : chr 0x5C ∉ body) (hlen : (single key (chr 0x22 :: body ++ [chr 0x22])).length < npos) :
    RfcBody body body ∧
    document ops (single key (chr 0x22 :: body ++ [chr 0x22])) = .ok (.obj [(key, .str body)], .noError) := by
  refine ⟨?_, single_string ops key body _ body hk hlen (.plains body hq hb) (Str.ofStdString_str body hs)⟩
  clear hs hlen
  induction body with
  | nil => exact .nil
  | cons c s ih =>
    exact .plain c s s (fun h => hq (by simp [h])) (fun h => hb (by simp [h]))
      (ih (fun h => hq (by simp [h])) (fun h => hb (by simp [h])))

/-- C57 fails, for every literal with one escape in front of another character: the escape is read correctly and the
character that follows it is lost. -/
theorem C57_fails_next_lost (ops : FloatOps F) (key pre post : Str) (c d : Chr) (b : UInt8) (hk : chr 0x22 ∉ key)
    (hs : Shapes pre) (hs' : Shapes post) (hq : chr 0x22 ∉ pre ++ post) (hb : chr 0x5C ∉ pre ++ post)
    (hd : d ≠ chr 0x22 ∧ d ≠ chr 0x5C) (hc : (c, b) ∈ escapes)
    (hlen : (single key (chr 0x22 :: (pre ++ chr 0x5C :: c :: d :: post) ++ [chr 0x22])).length < npos) :
    RfcBody (pre ++ chr 0x5C :: c :: d :: post) (pre ++ chr b :: d :: post) ∧
    document ops (single key (chr 0x22 :: (pre ++ chr 0x5C :: c :: d :: post) ++ [chr 0x22])) =
      .ok (.obj [(key, .str (pre ++ chr b :: post))], .noError) := by
  have hq' := hq
  have hb' := hb
  rw [List.mem_append, not_or] at hq' hb'
  constructor
  · have hpost : RfcBody (chr 0x5C :: c :: d :: post) (chr b :: d :: post) := by
      refine .escape c b _ _ hc (.plain d _ _ hd.1 hd.2 ?_)
      exact (C57_plain_partial oneFloat [] post (by simp) hs' hq'.2 hb'.2 (by
        simp only [single, List.length_append, List.length_cons, List.length_nil] at hlen ⊢; omega)).1
    clear hs hq hb hlen
    obtain ⟨h1, -⟩ := hq'
    obtain ⟨h2, -⟩ := hb'
    induction pre with
    | nil => exact hpost
    | cons x pre ih =>
      exact .plain x _ _ (fun h => h1 (by simp [h])) (fun h => h2 (by simp [h]))
        (ih (fun h => h1 (by simp [h])) (fun h => h2 (by simp [h])))
  · refine single_string ops key _ (Str.str pre ++ b :: Str.str post) _ hk hlen
      (.append (.plains pre hq'.1 hb'.1) (.escape c d b _ _ hc (.plains post hq'.2 hb'.2))) ?_
    have hsb : Shape (chr b).data := by
      have : 0x01 ≤ b ∧ b ≤ 0x7F := by
        simp only [escapes, List.mem_cons, List.not_mem_nil, or_false, Prod.mk.injEq] at hc
        rcases hc with ⟨_, rfl⟩ | ⟨_, rfl⟩ | ⟨_, rfl⟩ | ⟨_, rfl⟩ | ⟨_, rfl⟩ | ⟨_, rfl⟩ | ⟨_, rfl⟩ <;> decide
      exact .one b this.1 this.2
    have := Str.ofStdString_str (pre ++ chr b :: post) (hs.append (.cons hsb hs'))
    rw [← this, str_append]
    congr 2
    have hp : (chr b).printed = [b] := Shape.printed hsb
    simp [Str.str, hp]

/-- C57 fails: a literal that ends in an escape swallows its own end; `\/` is no escape; `\u` writes the low byte of the
code point. -/
theorem C57_fails :
    document oneFloat (single c!"a" c!"\"x\\n\"") = .error .ub ∧
    document oneFloat (single c!"a" c!"\"\\/ \"") = .ok (.null, .unexpectedCharacter) ∧
    document oneFloat (single c!"a" c!"\"\\u0141 \"") = .ok (.obj [(c!"a", .str c!"A")], .noError) :=
  ⟨rfl, rfl, rfl⟩

example : RfcBody c!"x\\ny" c!"x\ny" ∧
    document oneFloat (single c!"a" c!"\"x\\ny\"") = .ok (.obj [(c!"a", .str c!"x\n")], .noError) :=
  C57_fails_next_lost oneFloat c!"a" c!"x" [] ⟨b!"n"⟩ ⟨b!"y"⟩ 0x0A (by decide)
    (.cons (.one _ (by decide) (by decide)) .nil) .nil (by decide) (by decide) (by decide) (by decide) (by decide)

/-! ## C58 -/

theorem intLit_head {lit : Str} {i : Int} (h : IntLit lit i) : ∃ c t, lit = c :: t ∧ NumStart c ∧ ∀ d ∈ t, NumChar d := by
  cases h with
  | nonneg ds hne hd =>
    cases lit with
    | nil => exact absurd rfl hne
    | cons c t => exact ⟨c, t, rfl, .inl (hd c (by simp)), fun d h => .inl (hd d (by simp [h]))⟩
  | neg ds hne hd => exact ⟨_, _, rfl, .inr (.inl rfl), fun d h => .inl (hd d h)⟩

theorem not_floating_int {lit junk : Str} {i : Int} (h : IntLit lit i) (hj : ∀ c ∈ junk, Digit c ∨ c = chr 0x2E) :
    ¬ Floating (lit ++ junk) := by
  have key : ∀ c : Chr, (Digit c ∨ c = chr 0x2E ∨ c = chr 0x2D) → c ∉ c!"+eE" := by
    rintro c (h | rfl | rfl) hm
    · obtain ⟨b, h1, h2, rfl⟩ := h
      simp only [List.mem_cons, List.not_mem_nil, or_false] at hm
      rcases hm with h | h | h <;> (have := congrArg Chr.data h; injection this with this; subst this; revert h1 h2; decide)
    · revert hm; decide
    · revert hm; decide
  rintro ⟨c, hc, hm⟩
  rcases List.mem_append.mp hc with hc | hc
  · cases h with
    | nonneg ds _ hd => exact key c (.inl (hd c hc)) hm
    | neg ds _ hd =>
      rcases List.mem_cons.mp hc with hc | hc
      · exact key c (.inr (.inr hc)) hm
      · exact key c (.inl (hd c hc)) hm
  · rcases hj c hc with h | h
    · exact key c (.inl h) hm
    · exact key c (.inr (.inl h)) hm

theorem single_int (ops : FloatOps F) (key lit junk : Str) (i : Int) (hk : chr 0x22 ∉ key)
    (hlen : (single key (lit ++ junk)).length < npos) (h : IntLit lit i) (h1 : -(2 ^ 63) ≤ i) (h2 : i < 2 ^ 63)
    (hj : ∀ c ∈ junk, Digit c ∨ c = chr 0x2E) (hj' : ∀ c, junk.head? = some c → ¬ Digit c) :
    document ops (single key (lit ++ junk)) = .ok (.obj [(key, .int i)], .noError) := by
  refine C56_non_ascii_partial ops _ hlen _ (single_document hk ?_)
  obtain ⟨c, t, rfl, hc, ht⟩ := intLit_head h
  refine .number c (t ++ junk) _ _ hc ?_ headIs_brace (.int (c :: t) junk i h h1 h2 hj' (not_floating_int h hj))
  intro d hd
  rcases List.mem_append.mp hd with hd | hd
  · exact ht d hd
  · rcases hj d hd with h | h
    · exact .inl h
    · rw [h]; exact .inr (by decide)

/-- C58: an integer literal within int64 parses to that integer. -/
theorem C58_int64 (ops : FloatOps F) (key lit : Str) (i : Int) (hk : chr 0x22 ∉ key)
    (hlen : (single key lit).length < npos) (h : IntLit lit i) (h1 : -(2 ^ 63) ≤ i) (h2 : i < 2 ^ 63) :
    document ops (single key lit) = .ok (.obj [(key, .int i)], .noError) := by
  have := single_int ops key lit [] i hk (by rwa [List.append_nil]) h h1 h2 (by simp) (by simp)
  rwa [List.append_nil] at this

/-- C58: a literal outside int64 is reported as an error. -/
theorem C58_range_partial (ops : FloatOps F) (key lit : Str) (i : Int) (hk : chr 0x22 ∉ key)
    (hlen : (single key lit).length < npos) (h : IntLit lit i) (hr : i < -(2 ^ 63) ∨ 2 ^ 63 ≤ i) :
    ∃ e, document ops (single key lit) = .ok (.null, e) ∧ e ≠ .noError := by
  obtain ⟨c, t, rfl, -, -⟩ := intLit_head h
  obtain ⟨hc, ht, he⟩ := convert_range ops h hr
  have hsingle : single key (c :: t) = chr 0x7B :: (chr 0x22 :: key ++ chr 0x22 :: chr 0x3A :: (c :: t)) ++ [chr 0x7D] := by
    simp [single, chr]
  rw [hsingle] at hlen ⊢
  obtain ⟨p, hp⟩ := parse_bad_number ops key c t _ hlen hk hc ht he
  refine ⟨.unexpectedCharacter, ?_, by decide⟩
  unfold document
  rw [hp]; rfl

/-- C58 fails, for every literal outside int64: the error reported is not `OutOfRangeError`. -/
theorem C58_fails_range (ops : FloatOps F) (key lit : Str) (i : Int) (hk : chr 0x22 ∉ key)
    (hlen : (single key lit).length < npos) (h : IntLit lit i) (hr : i < -(2 ^ 63) ∨ 2 ^ 63 ≤ i) :
    document ops (single key lit) ≠ .ok (.null, .outOfRangeError) := by
  obtain ⟨c, t, rfl, -, -⟩ := intLit_head h
  obtain ⟨hc, ht, he⟩ := convert_range ops h hr
  have hsingle : single key (c :: t) = chr 0x7B :: (chr 0x22 :: key ++ chr 0x22 :: chr 0x3A :: (c :: t)) ++ [chr 0x7D] := by
    simp [single, chr]
  rw [hsingle] at hlen ⊢
  obtain ⟨p, hp⟩ := parse_bad_number ops key c t _ hlen hk hc ht he
  unfold document
  rw [hp]
  intro h
  injection h with h; injection h with _ h; exact absurd h (by simp)

/-- C58 fails, for every literal with a fraction and without exponent: the fraction is lost. -/
theorem C58_fails_fraction (ops : FloatOps F) (key lit frac : Str) (i : Int) (hk : chr 0x22 ∉ key)
    (hlen : (single key (lit ++ chr 0x2E :: frac)).length < npos) (h : IntLit lit i) (h1 : -(2 ^ 63) ≤ i)
    (h2 : i < 2 ^ 63) (hf : ∀ c ∈ frac, Digit c) :
    document ops (single key (lit ++ chr 0x2E :: frac)) = .ok (.obj [(key, .int i)], .noError) := by
  refine single_int ops key lit _ i hk hlen h h1 h2 ?_ ?_
  · intro c hc
    rcases List.mem_cons.mp hc with h | h
    · exact .inr h
    · exact .inl (hf c h)
  · intro c hc
    cases hc
    exact fun h => absurd ((digit_chr _).mp h) (by decide)

/-- C58: a literal with an exponent is read by `stod`. -/
theorem C58_exponent (ops : FloatOps F) (key : Str) (c : Chr) (t : Str) (f : F) (hk : chr 0x22 ∉ key)
    (hlen : (single key (c :: t)).length < npos) (hc : NumStart c) (ht : ∀ d ∈ t, NumChar d)
    (he : Floating (c :: t)) (hf : ops.stod (Str.str (c :: t)) = .ok f) :
    document ops (single key (c :: t)) = .ok (.obj [(key, .float f)], .noError) :=
  C56_non_ascii_partial ops _ hlen _ (single_document hk (.number c t _ _ hc ht headIs_brace (.float _ f he hf)))

example : document oneFloat (single c!"k" c!"-9223372036854775808") =
      .ok (.obj [(c!"k", .int (-9223372036854775808))], .noError) ∧
    document oneFloat (single c!"k" c!"9223372036854775808") = .ok (.null, .unexpectedCharacter) ∧
    document oneFloat (single c!"k" c!"2.75") = .ok (.obj [(c!"k", .int 2)], .noError) ∧
    document oneFloat (single c!"k" c!"2.5e3") = .ok (.obj [(c!"k", .float ())], .noError) := ⟨rfl, rfl, rfl, rfl⟩

/-! ## C59, for texts -/

/-- C59: no object in the tree made by `Parse` has two members with the same key. -/
theorem C59_parse (ops : FloatOps F) (s : Str) (root : Json F) (e : JsonError) (h : document ops s = .ok (root, e)) :
    UniqueKeys root := by
  rcases C55_root ops s root e h with ⟨_, rfl⟩ | ⟨rfl, _⟩
  · exact .null
  · obtain ⟨p, hp⟩ := document_of_parse.mpr h
    have hnf := parse_nf ops s
    rw [hp] at hnf
    exact hnf.1

theorem collapse_keys (ms : List (Str × Json F)) : (collapse ms).map Prod.fst = firsts (ms.map Prod.fst) := by
  induction ms with
  | nil => rfl
  | cons m ms ih =>
    obtain ⟨k, v⟩ := m
    simp only [collapse, List.map_cons, firsts, ← ih, List.filter_map]
    congr 1

theorem lastValue_eq (k : Str) (ms : List (Str × Json F)) : ∀ v, lastValue k v ms =
    ((ms.reverse.find? fun m => m.1 = k).map Prod.snd).getD v := by
  induction ms with
  | nil => intro v; rfl
  | cons m ms ih =>
    obtain ⟨k', v'⟩ := m
    intro v
    rw [lastValue, List.reverse_cons, List.find?_append]
    by_cases h : k' = k
    · rw [if_pos h, ih]
      cases ms.reverse.find? (fun m => m.1 = k) with
      | none => simp [h]
      | some m => rfl
    · rw [if_neg h, ih]
      cases ms.reverse.find? (fun m => m.1 = k) with
      | none => simp [h]
      | some m => rfl

/-- C59: a text with the members `ms`, in this order and possibly with repeated keys, denotes the object whose keys
are those of `ms`, each at its first position, and whose value for a key is the last one. -/
theorem C59_repeated (ms : List (Str × Json F)) :
    (collapse ms).map Prod.fst = firsts (ms.map Prod.fst) ∧
    ∀ k, Json.findMember k (collapse ms) = (ms.reverse.find? fun m => m.1 = k).map Prod.snd := by
  refine ⟨collapse_keys ms, fun k => ?_⟩
  induction ms with
  | nil => rfl
  | cons m ms ih =>
    obtain ⟨k', v⟩ := m
    rw [collapse, Json.findMember, List.reverse_cons, List.find?_append]
    by_cases h : k' = k
    · subst h
      rw [if_pos rfl, lastValue_eq]
      cases ms.reverse.find? (fun m => m.1 = k') with
      | none => simp
      | some m => rfl
    · rw [if_neg h]
      have hf : Json.findMember k ((collapse ms).filter fun m => m.1 ≠ k') = Json.findMember k (collapse ms) := by
        generalize collapse ms = l
        induction l with
        | nil => rfl
        | cons x l ihl =>
          obtain ⟨kx, vx⟩ := x
          rw [List.filter_cons]
          by_cases hx : kx = k'
          · subst hx
            rw [if_neg (by simp), ihl, Json.findMember, if_neg h]
          · rw [if_pos (by simpa using hx), Json.findMember, Json.findMember, ihl]
      rw [hf, ih]
      cases ms.reverse.find? (fun m => m.1 = k) with
      | none => simp [h]
      | some m => rfl

example : document oneFloat c!"{\"a\":1,\"b\":2,\"a\":3}" =
    .ok (.obj [(c!"a", .int 3), (c!"b", .int 2)], .noError) ∧
    collapse [(c!"a", .int 1), (c!"b", .int 2), (c!"a", (.int 3 : Json Unit))] =
      [(c!"a", .int 3), (c!"b", .int 2)] := ⟨rfl, rfl⟩

end Caitlyn
