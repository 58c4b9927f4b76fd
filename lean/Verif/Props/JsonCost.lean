import Verif.Proofs.JsonCostLow
import Verif.Props.JsonStack

/-! # Property C140: what parsing JSON costs -/

namespace Caitlyn
open Caitlyn.Spec JsonParser

variable {F : Type}

/-- C140. The model that counts computes for every text what the model that does not count computes. -/
theorem C140_same (ops : FloatOps F) (text : Str) : document ops text = (documentC ops text).map Prod.fst :=
  documentC_same ops text

/-- C140, as far as it holds: for every text, well-formed or not, no count exceeds the square of the length by more than three times
the length. The text itself is copied as often as it has characters, at most twice that.

Missing for the property: a bound proportional to the length. There is none (`C140_texts_fails` and so on). -/
theorem C140_square_partial (ops : FloatOps F) (text : Str) {r : Json F × JsonError} {c : Cost}
    (h : documentC ops text = .ok (r, c)) :
    c.texts ≤ 2 * text.length ∧ c.nodes ≤ text.length ^ 2 + 3 * text.length + 1 ∧ c.keys ≤ text.length ^ 2 :=
  documentC_bounds ops text _ h

/-- C140. What every text costs at least that is parsed into a value: a copy of the whole text for every `true` and two for every
`false`, two copies of every item of every array, with all that is in it, and a comparison for every pair of keys of every
object. -/
theorem C140_least (ops : FloatOps F) (text : Str) {r : Json F × JsonError} {c : Cost}
    (h : documentC ops text = .ok (r, c)) : CostLe (least r.1) c :=
  documentC_low ops text _ h

/-- The counts of a text: three copies of it, two copies of each of the two items and five nodes in the copy of the value, one
comparison. -/
example : (documentC oneFloat c!"{\"a\":[true,false],\"b\":\"\"}").toOption.map Prod.snd = some ⟨3, 9, 1⟩ := by
  decide +kernel

/-- The cost of a text that is well-formed. -/
theorem documentC_of {ops : FloatOps F} {lits : Bool} {text : Str} {j : Json F} (hlen : text.length < npos)
    (hs : lits = true → Ascii text) (h : Document ops lits text j) :
    ∃ c, documentC ops text = .ok ((j, .noError), c) ∧ CostLe (least j) c := by
  obtain ⟨p, hp⟩ := parse_complete ops lits text hlen hs h
  have e : document ops text = .ok (j, .noError) := by unfold document; rw [hp]; rfl
  rw [documentC_same] at e
  cases hc : documentC ops text with
  | error e' => rw [hc] at e; cases e
  | ok r =>
    obtain ⟨r, c⟩ := r
    rw [hc] at e
    obtain rfl : r = (j, .noError) := Except.ok.inj e
    exact ⟨c, rfl, documentC_low ops text _ hc⟩

theorem truths_elements (ops : FloatOps F) (rest : Str) : ∀ k, Elements ops true
    (c!"true" ++ (List.replicate k c!",true").flatten ++ chr 0x5D :: rest) (List.replicate (k + 1) (.bool true)) rest
  | 0 => by
    have := Elements.last (ops := ops) (lits := true) [] _ (.bool true) rest spaces_nil (Val.true _ rfl)
    simpa using this
  | k + 1 => by
    have := Elements.more (ops := ops) (lits := true) [] [] _ (.bool true) _ _ rest spaces_nil spaces_nil (Val.true _ rfl)
      (truths_elements ops rest k)
    rw [List.replicate_succ (n := k + 1)]
    simpa [List.replicate_succ, chr] using this

theorem truthsText_length (k : Nat) : (truthsText k).length = 5 * k + 12 := by
  have : ((List.replicate k c!",true").flatten).length = 5 * k := by
    induction k with
    | zero => rfl
    | succ k ih => simp [List.replicate_succ, ih]; omega
  unfold truthsText
  simp only [List.length_append, this]
  show 10 + 5 * k + 2 = _
  omega

theorem truthsText_ascii (k : Nat) : Ascii (truthsText k) := by
  have lit : ∀ t : Str, (∀ c ∈ t, c ∈ c!"{\"a\":[true,]}") → Ascii t := by
    intro t ht c hc
    have := ht c hc
    have key : ∀ c ∈ c!"{\"a\":[true,]}", ∃ b ∈ b!"{\"a\":[true,]}", c = chr b := by decide
    have key' : ∀ b ∈ b!"{\"a\":[true,]}", (0x01 : UInt8) ≤ b ∧ b ≤ 0x7F := by decide
    obtain ⟨b, hb, rfl⟩ := key c this
    exact ⟨b, (key' b hb).1, (key' b hb).2, rfl⟩
  refine lit _ fun c hc => ?_
  unfold truthsText at hc
  simp only [List.mem_append, List.mem_flatten] at hc
  rcases hc with (hc | ⟨l, hl, hc⟩) | hc
  · revert c; decide
  · rw [List.eq_of_mem_replicate hl] at hc
    revert c; decide
  · revert c; decide

theorem member_document (ops : FloatOps F) (lits : Bool) (text : Str) (j : Json F)
    (h : Val ops lits (text ++ c!"}") j c!"}") : Document ops lits (c!"{\"a\":" ++ text ++ c!"}") (.obj [(c!"a", j)]) := by
  refine ⟨[], _, [], _, spaces_nil, rfl, ?_, rfl, c!"{\"a\":" ++ text, [], spaces_nil, rfl⟩
  have := Val.object (ops := ops) (lits := lits) [] _ _ [] spaces_nil
    (Members.last c!"a" [] [] [] (text ++ c!"}") j [] (by decide) spaces_nil spaces_nil spaces_nil h)
  simpa [chr, collapse, lastValue] using this

/-- C140 is false: the text `{"a":[true,true,...]}` with `k + 1` truths, of `5 * k + 12` characters, is copied as a whole
`k + 1` times. The characters copied grow with the square of the length. -/
theorem C140_texts_fails (ops : FloatOps F) (k : Nat) (hk : k < 2 ^ 60) :
    ∃ c, documentC ops (truthsText k) = .ok ((.obj [(c!"a", truths k)], .noError), c) ∧
      (truthsText k).length = 5 * k + 12 ∧ k + 1 ≤ c.texts := by
  have hlen := truthsText_length k
  have hdoc : Document ops true (truthsText k) (.obj [(c!"a", truths k)] : Json F) := by
    have := member_document ops true (chr 0x5B :: (c!"true" ++ (List.replicate k c!",true").flatten ++ [chr 0x5D])) (truths k) (by
      have := Val.array (ops := ops) (lits := true) [] _ _ _ spaces_nil (truths_elements ops c!"}" k)
      simpa [truths] using this)
    simpa [truthsText, chr] using this
  obtain ⟨c, h1, h2⟩ := documentC_of (by rw [hlen]; show 5 * k + 12 < 18446744073709551615; omega)
    (fun _ => truthsText_ascii k) hdoc
  refine ⟨c, h1, hlen, ?_⟩
  have key : ∀ n, (leastItems (List.replicate n (.bool true) : List (Json F))).texts = n := by
    intro n
    induction n with
    | zero => rfl
    | succ n ih =>
      rw [List.replicate_succ, leastItems, texts_add, texts_add, ih, least]
      show 1 + 0 + n = _
      omega
  have := h2.1
  rw [least, texts_add, leastMembers, texts_add, truths, least, key] at this
  have e : (leastMembers ([] : List (Str × Json F))).texts = 0 := rfl
  rw [e] at this
  simpa using this

/-- C140 is false: the items of arrays in arrays are copied level by level. The document `{"a":[[...[0]...]]}` with `k` levels, of
`2 * k + 7` characters, which the program may have printed itself, takes `k * (k + 1)` copies of nodes at least. -/
theorem C140_nodes_fails (ops : FloatOps F) (k : Nat) (hk : k < 2 ^ 60) :
    ∃ text c, (Json.obj [(c!"a", nest k)]).toString ops false 2 = .ok text ∧ text.length = 2 * k + 7 ∧
      documentC ops text = .ok ((.obj [(c!"a", nest k)], .noError), c) ∧ k * (k + 1) ≤ c.nodes := by
  obtain ⟨text, h1, h2, h3⟩ := C128_fails ops k hk
  have e := h3 (opens text + k + 2)
  rw [if_neg (by omega), C128_enough ops text _ (by omega), documentC_same] at e
  cases hc : documentC ops text with
  | error e' => rw [hc] at e; cases e
  | ok r =>
    obtain ⟨r, c⟩ := r
    rw [hc] at e
    obtain rfl : r = (.obj [(c!"a", nest k)], .noError) := Except.ok.inj e
    refine ⟨text, c, h1, h2, hc, ?_⟩
    have low := (documentC_low ops text _ hc).2.1
    have cop : ∀ k, copied (nest k : Json F) = k + 1 := by
      intro k
      induction k with
      | zero => rw [nest, copied] <;> simp
      | succ k ih => rw [nest, copied, copiedItems, ih, copiedItems]; omega
    have key : ∀ k, (least (nest k : Json F)).nodes = k * (k + 1) := by
      intro k
      induction k with
      | zero => rw [nest, least] <;> simp
      | succ k ih =>
        rw [nest, least, leastItems, nodes_add, nodes_add, ih, cop]
        have e : (leastItems ([] : List (Json F))).nodes = 0 := rfl
        rw [e]
        simp only []
        have : (k + 1) * (k + 1 + 1) = k * (k + 1) + 2 * (k + 1) := by
          rw [Nat.mul_comm, ← Nat.add_mul]
        omega
    rw [least, nodes_add, leastMembers, nodes_add, key] at low
    have : k * (k + 1) ≤ k * (k + 1) + (leastMembers ([] : List (Str × Json F))).nodes + 0 := by omega
    exact this.trans low

theorem zeros_members (ops : FloatOps F) : ∀ ks : List Str, ks ≠ [] → (∀ k ∈ ks, chr 0x22 ∉ k) →
    Members ops false (zerosText ks ++ c!"}") (ks.map fun k => (k, (.int 0 : Json F))) []
  | [], h, _ => absurd rfl h
  | [k], _, hk => by
    have hv : Val ops false (c!"0" ++ c!"}") (.int 0 : Json F) c!"}" := by
      refine Val.number (chr 0x30) [] _ _ (.inl ⟨0x30, by decide, by decide, rfl⟩) (by intro d hd; cases hd) ?_ ?_
      · intro c hc
        obtain rfl : chr 0x7D = c := by simpa [chr] using hc
        exact ⟨⟨0x7D, by decide, rfl⟩, by rintro (⟨b, h1, h2, h3⟩ | h) <;> [skip; exact absurd h (by decide)]
                                          have := chr_inj h3; subst this; exact absurd h2 (by decide)⟩
      · exact Number.int [chr 0x30] [] 0 (.nonneg [chr 0x30] (by simp) (by
          intro c hc; rw [List.mem_singleton.mp hc]; exact ⟨0x30, by decide, by decide, rfl⟩)) (by decide) (by decide)
          (by intro c hc; cases hc) (by rintro ⟨c, h1, h2⟩; rw [List.append_nil, List.mem_singleton] at h1; subst h1; exact absurd h2 (by decide))
    have := Members.last (ops := ops) (lits := false) k [] [] [] _ _ [] (hk k (by simp)) spaces_nil spaces_nil spaces_nil hv
    simpa [zerosText, chr] using this
  | k :: k' :: ks, _, hk => by
    have ih := zeros_members ops (k' :: ks) (by simp) (fun x hx => hk x (by simp [hx]))
    have hv : Val ops false (c!"0" ++ (chr 0x2C :: (zerosText (k' :: ks) ++ c!"}"))) (.int 0 : Json F)
        (chr 0x2C :: (zerosText (k' :: ks) ++ c!"}")) := by
      refine Val.number (chr 0x30) [] _ _ (.inl ⟨0x30, by decide, by decide, rfl⟩) (by intro d hd; cases hd) ?_ ?_
      · intro c hc
        obtain rfl : chr 0x2C = c := by simpa [chr] using hc
        exact ⟨⟨0x2C, by decide, rfl⟩, by rintro (⟨b, h1, h2, h3⟩ | h) <;> [skip; exact absurd h (by decide)]
                                          have := chr_inj h3; subst this; exact absurd h1 (by decide)⟩
      · exact Number.int [chr 0x30] [] 0 (.nonneg [chr 0x30] (by simp) (by
          intro c hc; rw [List.mem_singleton.mp hc]; exact ⟨0x30, by decide, by decide, rfl⟩)) (by decide) (by decide)
          (by intro c hc; cases hc) (by rintro ⟨c, h1, h2⟩; rw [List.append_nil, List.mem_singleton] at h1; subst h1; exact absurd h2 (by decide))
    have := Members.more (ops := ops) (lits := false) k [] [] [] [] _ _ _ _ [] (hk k (by simp)) spaces_nil spaces_nil spaces_nil
      spaces_nil hv ih
    simpa [zerosText, chr] using this

theorem pairs_eq : ∀ k, pairs k = k * (k - 1) / 2
  | 0 => rfl
  | k + 1 => by
    rw [pairs, pairs_eq k]
    cases k with
    | zero => rfl
    | succ k =>
      simp only [Nat.add_sub_cancel]
      have : (k + 1 + 1) * (k + 1) = (k + 1) * k + 2 * (k + 1) := by
        rw [Nat.add_mul (k + 1) 1, Nat.mul_add (k + 1) k 1]; omega
      rw [this]
      omega

/-- C140 is false: an object with different keys takes a comparison for every pair of them. -/
theorem C140_keys_fails (ops : FloatOps F) (ks : List Str) (hne : ks ≠ []) (hk : ∀ k ∈ ks, chr 0x22 ∉ k) (hd : ks.Nodup)
    (hlen : (c!"{" ++ zerosText ks ++ c!"}").length < npos) :
    ∃ c, documentC ops (c!"{" ++ zerosText ks ++ c!"}") = .ok ((zeros ks, .noError), c) ∧
      ks.length * (ks.length - 1) / 2 ≤ c.keys := by
  have hdoc : Document ops false (c!"{" ++ zerosText ks ++ c!"}") (zeros ks : Json F) := by
    refine ⟨[], _, [], _, spaces_nil, rfl, ?_, rfl, c!"{" ++ zerosText ks, [], spaces_nil, rfl⟩
    have := Val.object (ops := ops) (lits := false) [] _ _ [] spaces_nil (zeros_members ops ks hne hk)
    rw [collapse_nodup _ (by simpa [Function.comp_def] using hd)] at this
    simpa [chr, zeros] using this
  obtain ⟨c, h1, h2⟩ := documentC_of hlen (by intro h; cases h) hdoc
  refine ⟨c, h1, ?_⟩
  have := h2.2.2
  rw [zeros, least, keys_add] at this
  simp only [List.length_map] at this
  rw [← pairs_eq]
  omega

/-- The keys of `C140_keys_fails` can be as short as the logarithm of their number: the `2 ^ w` words of `w` letters. -/
theorem words_distinct : ∀ w, (words w).length = 2 ^ w ∧ (words w).Nodup ∧ ∀ k ∈ words w, chr 0x22 ∉ k ∧ k.length = w
  | 0 => ⟨rfl, by simp [words], by simp [words]⟩
  | w + 1 => by
    obtain ⟨h1, h2, h3⟩ := words_distinct w
    refine ⟨by simp [words, h1, Nat.pow_succ]; omega, ?_, ?_⟩
    · rw [words, List.nodup_append]
      refine ⟨?_, ?_, ?_⟩
      · exact h2.map _ (by intro a b hab h; exact hab (List.cons.inj h).2)
      · exact h2.map _ (by intro a b hab h; exact hab (List.cons.inj h).2)
      · intro a ha b hb hab
        obtain ⟨x, -, rfl⟩ := List.mem_map.mp ha
        obtain ⟨y, -, rfl⟩ := List.mem_map.mp hb
        exact absurd (List.cons.inj hab).1 (by decide)
    · intro k hk
      rw [words, List.mem_append] at hk
      rcases hk with hk | hk <;> obtain ⟨x, hx, rfl⟩ := List.mem_map.mp hk <;> obtain ⟨h4, h5⟩ := h3 x hx
      all_goals
        refine ⟨fun h => ?_, by simp [h5]⟩
        rcases List.mem_cons.mp h with h | h
        · exact absurd h (by decide)
        · exact h4 h

theorem zerosText_length (w : Nat) : ∀ ks : List Str, ks ≠ [] → (∀ k ∈ ks, k.length = w) →
    (zerosText ks).length + 1 = ks.length * (w + 5)
  | [], h, _ => absurd rfl h
  | [k], _, h => by
    have := h k (by simp)
    simp [zerosText, this]
  | k :: k' :: ks, _, h => by
    have ih := zerosText_length w (k' :: ks) (by simp) (fun x hx => h x (by simp [hx]))
    have := h k (by simp)
    rw [zerosText]
    simp only [List.length_append, this]
    rw [List.length_cons (a := k), Nat.add_mul, ← ih]
    show 1 + w + 4 + _ + 1 = _
    omega
    simp

/-- C140 is false: the keys of an object need not be long for it. A text of `2 ^ w * (w + 5) + 1` characters takes
`2 ^ w * (2 ^ w - 1) / 2` comparisons. -/
theorem C140_short_keys_fails (ops : FloatOps F) (w : Nat) (hw : w ≤ 50) :
    ∃ text r c, documentC ops text = .ok ((r, .noError), c) ∧ text.length = 2 ^ w * (w + 5) + 1 ∧
      2 ^ w * (2 ^ w - 1) / 2 ≤ c.keys := by
  obtain ⟨h1, h2, h3⟩ := words_distinct w
  have hne : words w ≠ [] := by
    intro h
    rw [h] at h1
    have := Nat.two_pow_pos w
    simp at h1
    omega
  have hl := zerosText_length w (words w) hne fun k hk => (h3 k hk).2
  rw [h1] at hl
  have hlen : (c!"{" ++ zerosText (words w) ++ c!"}").length = 2 ^ w * (w + 5) + 1 := by
    rw [← hl]; simp
  have hb : 2 ^ w * (w + 5) ≤ 2 ^ 50 * 55 := Nat.mul_le_mul (Nat.pow_le_pow_right (by decide) hw) (by omega)
  obtain ⟨c, k1, k2⟩ := C140_keys_fails ops (words w) hne (fun k hk => (h3 k hk).1) h2 (by
    rw [hlen]; show _ < 18446744073709551615; omega)
  rw [h1] at k2
  exact ⟨_, _, c, k1, hlen, k2⟩

end Caitlyn
