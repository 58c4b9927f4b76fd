import Verif.Proofs.JsonPrint
import Verif.Proofs.StreamMemParse

/-! # Helper lemmas: only the values in `Printable` survive printing and parsing

The weight of a text is the number of its bytes that are neither white space nor characters of numbers. What a text denotes prints
with at most the weight of the text, and with less if there are escapes or repeated keys. -/

namespace Caitlyn
open Caitlyn.Spec Json

variable {F : Type} {ops : FloatOps F} {lits : Bool}

def light (b : UInt8) : Bool := b ∈ b!"0123456789.eE+-" || b ∈ ([0x09, 0x0A, 0x0B, 0x0C, 0x0D, 0x20] : List UInt8)

def byteWeight (bs : List UInt8) : Nat := bs.countP fun b => !light b

def weight (s : Str) : Nat := byteWeight (Str.str s)

theorem weight_append (a b : Str) : weight (a ++ b) = weight a + weight b := by
  unfold weight byteWeight
  rw [str_append, List.countP_append]

theorem weight_nil : weight [] = 0 := rfl

theorem weight_chr (b : UInt8) (hb : b ≠ 0) (s : Str) : weight (chr b :: s) = (if light b then 0 else 1) + weight s := by
  have : Str.str (chr b :: s) = b :: Str.str s := by simp [Str.str, chr, Chr.printed, hb]
  unfold weight byteWeight
  rw [this, List.countP_cons]
  cases light b <;> simp <;> omega

theorem weight_light {s : Str} (h : ∀ c ∈ s, ∃ b, c = chr b ∧ b ≠ 0 ∧ light b = true) : weight s = 0 := by
  induction s with
  | nil => rfl
  | cons c s ih =>
    obtain ⟨b, rfl, h1, h2⟩ := h c (by simp)
    rw [weight_chr b h1, h2, ih fun c hc => h c (by simp [hc])]
    rfl

theorem weight_spaces {w : Str} (h : Spaces w) : weight w = 0 := by
  refine weight_light fun c hc => ?_
  have := h c hc
  simp only [Space, List.mem_cons, List.not_mem_nil, or_false] at this
  rcases this with rfl | rfl | rfl | rfl | rfl | rfl <;> exact ⟨_, rfl, by decide, by decide⟩

theorem light_numChar {c : Chr} (h : NumChar c) : ∃ b, c = chr b ∧ b ≠ 0 ∧ light b = true := by
  rcases h with ⟨b, h1, h2, rfl⟩ | h
  · refine ⟨b, rfl, ?_, ?_⟩
    · rintro rfl; revert h1; decide
    · have : ∀ b : UInt8, 0x30 ≤ b → b ≤ 0x39 → light b = true := by
        intro b
        have : ∀ n : Fin 256, (0x30 : UInt8) ≤ UInt8.ofNat n → UInt8.ofNat n ≤ (0x39 : UInt8) → light (UInt8.ofNat n) = true := by
          decide +kernel
        have hb := this ⟨b.toNat, b.toNat_lt⟩
        simpa using hb
      exact this b h1 h2
  · simp only [List.mem_cons, List.not_mem_nil, or_false] at h
    rcases h with rfl | rfl | rfl | rfl | rfl <;> exact ⟨_, rfl, by decide, by decide⟩

theorem weight_number {t : Str} (h : ∀ c ∈ t, NumChar c) : weight t = 0 := weight_light fun c hc => light_numChar (h c hc)

mutual

/-- The weight of a printed value. -/
def treeWeight : Json F → Nat
  | .null => 4
  | .bool b => if b then 3 else 4
  | .int _ => 0
  | .float _ => 0
  | .str s => 2 + weight s
  | .arr js => match js with
    | [] => 2
    | j :: js => 1 + (treeWeight j + 1 + itemsWeight js)
  | .obj ms => match ms with
    | [] => 2
    | m :: ms => 1 + (memberWeight m + membersWeight ms)

def memberWeight : Str × Json F → Nat
  | (k, v) => weight k + 4 + treeWeight v

/-- With a comma or bracket behind each. -/
def itemsWeight : List (Json F) → Nat
  | [] => 0
  | j :: js => treeWeight j + 1 + itemsWeight js

def membersWeight : List (Str × Json F) → Nat
  | [] => 0
  | m :: ms => memberWeight m + membersWeight ms

end

theorem treeWeight_arr (js : List (Json F)) (h : js ≠ []) : treeWeight (.arr js) = 1 + itemsWeight js := by
  cases js with
  | nil => exact absurd rfl h
  | cons j js => rw [treeWeight, itemsWeight]

theorem treeWeight_obj (ms : List (Str × Json F)) (h : ms ≠ []) : treeWeight (.obj ms) = 1 + membersWeight ms := by
  cases ms with
  | nil => exact absurd rfl h
  | cons j js => rw [treeWeight, membersWeight]

theorem weight_pretty (p : Bool) {s : Str} (h : Spaces s) : weight (whenPretty p s) = 0 := weight_spaces (spaces_whenPretty p h)

theorem weight_output {Q : Str → Prop} {j : Json F} (h : Written ops Q j) : ∀ pretty base indent,
    weight (output ops pretty base indent j) = treeWeight j := by
  induction h with
  | null => intros; rw [output]; rfl
  | bool b => intros; rw [output]; cases b <;> rfl
  | int i =>
    intros
    obtain ⟨c, t, he, hc, ht, hc'⟩ := intLit_numChars (intChars_lit i)
    rw [output, he]
    refine weight_number fun d hd => ?_
    rcases List.mem_cons.mp hd with rfl | hd
    · exact numStart_numChar hc
    · exact .inl (ht d hd)
  | float f _ h =>
    intros
    rw [output]
    refine weight_number fun d hd => ?_
    obtain ⟨b, hb, rfl⟩ := List.mem_map.mp hd
    exact h b hb
  | str s _ =>
    intros
    rw [output, weight_append, weight_append, treeWeight]
    show 1 + weight s + 1 = _
    omega
  | arr js _ ih =>
    intro pretty base indent
    have items : ∀ js' : List (Json F), (∀ j ∈ js', j ∈ js) → weight (outputItems ops pretty base indent js') = itemsWeight js' := by
      intro js'
      induction js' with
      | nil => intro _; rw [outputItems, itemsWeight]; rfl
      | cons j js' ih' =>
        intro hsub
        rw [outputItems, itemsWeight]
        simp only [weight_append, weight_pretty _ spaces_lf, weight_pretty _ (spaces_spaces _), ih j (hsub j (.head _)),
          ih' fun x hx => hsub x (.tail _ hx)]
        show 1 + 0 + 0 + treeWeight j + _ = _
        omega
    cases js with
    | nil =>
      rw [output]
      simp only [weight_append, weight_pretty _ (spaces_spaces _)]
      rw [treeWeight]
      rfl
    | cons j js =>
      rw [output, treeWeight]
      simp only [weight_append, weight_pretty _ spaces_lf, weight_pretty _ (spaces_spaces _), ih j (.head _),
        items js fun x hx => .tail _ hx]
      show 1 + (0 + (0 + treeWeight j + itemsWeight js) + 0) + 0 + 1 = _
      omega
  | obj ms _ _ ih =>
    intro pretty base indent
    have one : ∀ m ∈ ms, weight (outputMember ops pretty base indent m) + 1 = memberWeight m := by
      intro m hm
      obtain ⟨k, v⟩ := m
      rw [outputMember, memberWeight]
      simp only [weight_append, weight_pretty _ spaces_sp, weight_pretty _ (spaces_spaces _), ih _ hm]
      show 0 + 1 + weight k + 1 + 1 + 0 + treeWeight v + 1 = _
      omega
    have all : ∀ ms' : List (Str × Json F), (∀ m ∈ ms', m ∈ ms) →
        weight (outputMembers ops pretty base indent ms') = membersWeight ms' := by
      intro ms'
      induction ms' with
      | nil => intro _; rw [outputMembers, membersWeight]; rfl
      | cons m ms' ih' =>
        intro hsub
        rw [outputMembers, membersWeight]
        have := one m (hsub m (.head _))
        simp only [weight_append, weight_pretty _ spaces_lf, ih' fun x hx => hsub x (.tail _ hx)]
        show 1 + 0 + _ + _ = _
        omega
    cases ms with
    | nil =>
      rw [output]
      simp only [weight_append, weight_pretty _ (spaces_spaces _)]
      rw [treeWeight]
      rfl
    | cons m ms =>
      rw [output, treeWeight]
      have := one m (.head _)
      simp only [weight_append, weight_pretty _ spaces_lf, weight_pretty _ (spaces_spaces _), all ms fun x hx => .tail _ hx]
      show 1 + (0 + (weight _ + membersWeight ms) + 0) + 0 + 1 = _
      omega

/-! ### What a text denotes -/

/-- The conditions on strings, keys and integers. -/
inductive Clean : Json F → Prop where
  | null : Clean .null
  | bool (b) : Clean (.bool b)
  | int (i) : -(2 ^ 63) ≤ i → i < 2 ^ 63 → Clean (.int i)
  | float (f) : Clean (.float f)
  | str (s) : chr 0x22 ∉ s → chr 0x5C ∉ s → Clean (.str s)
  | arr (js : List (Json F)) : (∀ j ∈ js, Clean j) → Clean (.arr js)
  | obj (ms : List (Str × Json F)) : (∀ m ∈ ms, chr 0x22 ∉ m.1) → (∀ m ∈ ms, Clean m.2) → Clean (.obj ms)

theorem byteWeight_cons (b : UInt8) (bs : List UInt8) : byteWeight (b :: bs) ≤ 1 + byteWeight bs := by
  unfold byteWeight
  rw [List.countP_cons]
  split <;> omega

theorem body_weight {body : Str} {bs : List UInt8} (h : StrBody body bs) :
    byteWeight bs < weight body ∨ (bs = Str.str body ∧ chr 0x22 ∉ body ∧ chr 0x5C ∉ body) := by
  induction h with
  | nil => exact .inr ⟨rfl, by simp, by simp⟩
  | plain c s bs h1 h2 _ ih =>
    have e : weight (c :: s) = byteWeight c.printed + weight s := by
      unfold weight byteWeight
      rw [show Str.str (c :: s) = c.printed ++ Str.str s from rfl, List.countP_append]
    have e' : byteWeight (c.printed ++ bs) = byteWeight c.printed + byteWeight bs := by
      unfold byteWeight; rw [List.countP_append]
    rcases ih with ih | ⟨ih1, ih2, ih3⟩
    · left; omega
    · refine .inr ⟨by rw [ih1]; rfl, ?_, ?_⟩
      · simp only [List.mem_cons, not_or]; exact ⟨fun e => h1 e.symm, ih2⟩
      · simp only [List.mem_cons, not_or]; exact ⟨fun e => h2 e.symm, ih3⟩
  | escape c ignored b s bs hm _ ih =>
    left
    have h1 : weight (chr 0x5C :: c :: ignored :: s) = 1 + (1 + (weight [ignored] + weight s)) := by
      rw [weight_chr _ (by decide), show c :: ignored :: s = [c] ++ ([ignored] ++ s) from rfl, weight_append, weight_append]
      have : weight [c] = 1 := by
        simp only [escapes, List.mem_cons, List.not_mem_nil, or_false, Prod.mk.injEq] at hm
        rcases hm with ⟨rfl, _⟩ | ⟨rfl, _⟩ | ⟨rfl, _⟩ | ⟨rfl, _⟩ | ⟨rfl, _⟩ | ⟨rfl, _⟩ | ⟨rfl, _⟩ <;> rfl
      rw [this]
      rfl
    have h2 := byteWeight_cons b bs
    have h3 : byteWeight bs ≤ weight s := by
      rcases ih with ih | ⟨ih, _⟩
      · omega
      · rw [ih]; exact Nat.le_refl _
    omega
  | unicode h₁ h₂ h₃ h₄ ignored neg n s bs _ _ _ ih =>
    left
    have h1 : weight (chr 0x5C :: chr 0x75 :: h₁ :: h₂ :: h₃ :: h₄ :: ignored :: s) =
        1 + (1 + (weight [h₁, h₂, h₃, h₄, ignored] + weight s)) := by
      rw [weight_chr _ (by decide), weight_chr _ (by decide), ← weight_append]
      rfl
    have h2 := byteWeight_cons (byteOf neg n) bs
    have h3 : byteWeight bs ≤ weight s := by
      rcases ih with ih | ⟨ih, _⟩
      · omega
      · rw [ih]; exact Nat.le_refl _
    omega

theorem string_weight {body : Str} {bs : List UInt8} {s : Str} (h : StrBody body bs) (hs : Str.ofStdString bs = .ok s)
    (hb : ∀ c ∈ body, Shape c.data) : weight s < weight body ∨ (s = body ∧ chr 0x22 ∉ body ∧ chr 0x5C ∉ body) := by
  rcases body_weight h with h | ⟨rfl, h1, h2⟩
  · left
    obtain ⟨_, rfl | ⟨rest, rfl⟩⟩ := StreamMem.ofStdString_inv hs
    · exact h
    · refine Nat.lt_of_le_of_lt ?_ h
      unfold weight byteWeight
      rw [List.countP_append]
      exact Nat.le_add_right _ _
  · right
    rw [Str.ofStdString_str body hb] at hs
    injection hs with hs
    exact ⟨hs.symm, h1, h2⟩

theorem membersWeight_filter (p : Str × Json F → Bool) : ∀ ms : List (Str × Json F), membersWeight (ms.filter p) ≤ membersWeight ms
  | [] => Nat.le_refl _
  | m :: ms => by
    have := membersWeight_filter p ms
    rw [List.filter_cons]
    split
    · rw [membersWeight, membersWeight]; omega
    · rw [membersWeight]; omega

theorem membersWeight_without {k : Str} {m : Str × Json F} (hk : m.1 = k) : ∀ ms : List (Str × Json F), m ∈ ms →
    memberWeight m + membersWeight (ms.filter fun m => m.1 ≠ k) ≤ membersWeight ms
  | m' :: ms, h => by
    rcases List.mem_cons.mp h with rfl | h
    · have := membersWeight_filter (fun m => m.1 ≠ k) ms
      rw [List.filter_cons, if_neg (by simp [hk]), membersWeight]
      omega
    · have := membersWeight_without hk ms h
      rw [List.filter_cons, membersWeight]
      split
      · rw [membersWeight]; omega
      · omega

theorem lastValue_mem {k : Str} : ∀ (ms : List (Str × Json F)) (v : Json F), (k, lastValue k v ms) ∈ collapse ms ∨
    (lastValue k v ms = v ∧ k ∉ ms.map Prod.fst)
  | [], v => .inr ⟨rfl, by simp⟩
  | (k', v') :: ms, v => by
    rw [lastValue, collapse]
    by_cases c : k' = k
    · subst c
      rw [if_pos rfl]
      exact .inl (by simp)
    · rw [if_neg c]
      rcases lastValue_mem ms v with h | ⟨h1, h2⟩
      · left
        refine List.mem_cons_of_mem _ (List.mem_filter.mpr ⟨h, ?_⟩)
        simpa using fun e => c e.symm
      · refine .inr ⟨h1, ?_⟩
        simp only [List.map_cons, List.mem_cons, not_or]
        exact ⟨fun e => c e.symm, h2⟩

theorem collapse_weight : ∀ ms : List (Str × Json F), membersWeight (collapse ms) < membersWeight ms ∨ collapse ms = ms
  | [] => .inr rfl
  | (k, v) :: ms => by
    have ih := collapse_weight ms
    have hle : membersWeight (collapse ms) ≤ membersWeight ms := by
      rcases ih with ih | ih
      · omega
      · rw [ih]; exact Nat.le_refl _
    rw [collapse, membersWeight, membersWeight]
    have h4 : 0 < memberWeight (k, v) := by rw [memberWeight]; omega
    rcases lastValue_mem (k := k) ms v with h | ⟨h1, h2⟩
    · left
      have := membersWeight_without (k := k) rfl _ h
      omega
    · rw [h1]
      have hf : (collapse ms).filter (fun m => m.1 ≠ k) = collapse ms := by
        rw [← collapse_filter, List.filter_eq_self.mpr]
        intro m hm
        have : m.1 ≠ k := fun e => h2 (List.mem_map.mpr ⟨m, hm, e⟩)
        simpa using this
      rw [hf]
      rcases ih with ih | ih
      · left; omega
      · right; rw [ih]

theorem collapse_ne {ms : List (Str × Json F)} (h : ms ≠ []) : collapse ms ≠ [] := by
  cases ms with
  | nil => exact absurd rfl h
  | cons m ms => obtain ⟨k, v⟩ := m; rw [collapse]; simp

theorem members_ne {text rest : Str} {ms : List (Str × Json F)} (h : Members ops lits text ms rest) : ms ≠ [] := by
  cases h <;> simp

theorem elements_ne {text rest : Str} {js : List (Json F)} (h : Elements ops lits text js rest) : js ≠ [] := by
  cases h <;> simp

def Shaped (t : Str) : Prop := ∀ c ∈ t, Shape c.data

theorem Shaped.right {a b : Str} (h : Shaped (a ++ b)) : Shaped b := fun c hc => h c (List.mem_append.mpr (.inr hc))
theorem Shaped.left {a b : Str} (h : Shaped (a ++ b)) : Shaped a := fun c hc => h c (List.mem_append.mpr (.inl hc))
theorem Shaped.tail {c : Chr} {b : Str} (h : Shaped (c :: b)) : Shaped b := fun d hd => h d (.tail _ hd)

mutual

theorem val_weight : ∀ {text : Str} {j : Json F} {rest : Str}, Val ops lits text j rest → Shaped text →
    Shaped rest ∧ (treeWeight j + weight rest < weight text ∨ (treeWeight j + weight rest = weight text ∧ Clean j))
  | _, _, rest, .null _ _ => fun hs => ⟨hs.right, .inr ⟨by rw [weight_append, treeWeight]; rfl, .null⟩⟩
  | _, _, rest, .true _ _ => fun hs => ⟨hs.right, .inr ⟨by rw [weight_append, treeWeight]; rfl, .bool _⟩⟩
  | _, _, rest, .false _ _ => fun hs => ⟨hs.right, .inr ⟨by rw [weight_append, treeWeight]; rfl, .bool _⟩⟩
  | _, _, rest, .number c t j _ hc ht hr hj => fun hs => by
    refine ⟨hs.right, .inr ?_⟩
    have hw : weight (c :: t) = 0 := weight_number fun d hd => by
      rcases List.mem_cons.mp hd with rfl | hd
      · exact numStart_numChar hc
      · exact ht d hd
    rw [weight_append, hw]
    generalize c :: t = u at hj
    cases hj with
    | int lit junk i _ h1 h2 => exact ⟨by rw [treeWeight], .int i h1 h2⟩
    | float t f _ _ => exact ⟨by rw [treeWeight], .float f⟩
  | _, _, rest, .string body bs s _ hb hs' => fun hs => by
    have hs1 : Shaped (body ++ chr 0x22 :: rest) := hs.tail
    refine ⟨hs1.right.tail, ?_⟩
    have e : weight (chr 0x22 :: body ++ chr 0x22 :: rest) = 1 + weight body + (1 + weight rest) := by
      rw [weight_append, weight_chr _ (by decide), weight_chr _ (by decide)]; rfl
    rw [e, treeWeight]
    rcases string_weight hb hs' hs1.left with h | ⟨rfl, h1, h2⟩
    · left; omega
    · exact .inr ⟨by omega, .str _ h1 h2⟩
  | _, _, rest, .emptyObject w _ hw => fun hs => by
    have hs1 : Shaped (w ++ chr 0x7D :: rest) := hs.tail
    refine ⟨hs1.right.tail, .inr ⟨?_, .obj [] (by simp) (by simp)⟩⟩
    rw [weight_append, weight_chr _ (by decide), weight_chr _ (by decide), weight_spaces hw, treeWeight]
    show 2 + _ = 1 + 0 + (1 + _)
    omega
  | _, _, rest, .object w text ms _ hw hm => fun hs => by
    have hs1 : Shaped (w ++ text) := hs.tail
    obtain ⟨h1, h2⟩ := members_weight hm hs1.right
    refine ⟨h1, ?_⟩
    have e : weight (chr 0x7B :: w ++ text) = 1 + weight text := by
      rw [weight_append, weight_chr _ (by decide), weight_spaces hw]; rfl
    rw [e, treeWeight_obj _ (collapse_ne (members_ne hm))]
    rcases collapse_weight ms with hc | hc
    · left; omega
    · rw [hc]
      rcases h2 with h2 | ⟨h2, h3, h4⟩
      · left; omega
      · exact .inr ⟨by omega, .obj _ h3 h4⟩
  | _, _, rest, .emptyArray w _ hw => fun hs => by
    have hs1 : Shaped (w ++ chr 0x5D :: rest) := hs.tail
    refine ⟨hs1.right.tail, .inr ⟨?_, .arr [] (by simp)⟩⟩
    rw [weight_append, weight_chr _ (by decide), weight_chr _ (by decide), weight_spaces hw, treeWeight]
    show 2 + _ = 1 + 0 + (1 + _)
    omega
  | _, _, rest, .array w text js _ hw hm => fun hs => by
    have hs1 : Shaped (w ++ text) := hs.tail
    obtain ⟨h1, h2⟩ := elements_weight hm hs1.right
    refine ⟨h1, ?_⟩
    have e : weight (chr 0x5B :: w ++ text) = 1 + weight text := by
      rw [weight_append, weight_chr _ (by decide), weight_spaces hw]; rfl
    rw [e, treeWeight_arr _ (elements_ne hm)]
    rcases h2 with h2 | ⟨h2, h3⟩
    · left; omega
    · exact .inr ⟨by omega, .arr _ h3⟩

theorem members_weight : ∀ {text : Str} {ms : List (Str × Json F)} {rest : Str}, Members ops lits text ms rest → Shaped text →
    Shaped rest ∧ (membersWeight ms + weight rest < weight text ∨ (membersWeight ms + weight rest = weight text ∧
      (∀ m ∈ ms, chr 0x22 ∉ m.1) ∧ ∀ m ∈ ms, Clean m.2))
  | _, _, rest, .last key w₁ w₂ w₃ text j _ hk h₁ h₂ h₃ hv => fun hs => by
    obtain ⟨g1, g2⟩ := val_weight hv hs.right
    refine ⟨g1.right.tail, ?_⟩
    have e : weight (chr 0x22 :: key ++ chr 0x22 :: w₁ ++ chr 0x3A :: w₂ ++ text) = weight key + 3 + weight text := by
      simp only [weight_append, weight_chr _ (show (0x22 : UInt8) ≠ 0 by decide), weight_chr _ (show (0x3A : UInt8) ≠ 0 by decide),
        weight_spaces h₁, weight_spaces h₂]
      show 1 + weight key + (1 + 0) + (1 + 0) + _ = _
      omega
    have e' : weight (w₃ ++ chr 0x7D :: rest) = 1 + weight rest := by
      rw [weight_append, weight_chr _ (by decide), weight_spaces h₃, Nat.zero_add]; rfl
    rw [e'] at g2
    rw [e]
    simp only [membersWeight, memberWeight]
    rcases g2 with g2 | ⟨g2, g3⟩
    · left; omega
    · exact .inr ⟨by omega, by simpa using hk, by simpa using g3⟩
  | _, _, rest, .more key w₁ w₂ w₃ w₄ text j text' ms _ hk h₁ h₂ h₃ h₄ hv hm => fun hs => by
    obtain ⟨g1, g2⟩ := val_weight hv hs.right
    obtain ⟨f1, f2⟩ := members_weight hm g1.right
    refine ⟨f1, ?_⟩
    have e : weight (chr 0x22 :: key ++ chr 0x22 :: w₁ ++ chr 0x3A :: w₂ ++ text) = weight key + 3 + weight text := by
      simp only [weight_append, weight_chr _ (show (0x22 : UInt8) ≠ 0 by decide), weight_chr _ (show (0x3A : UInt8) ≠ 0 by decide),
        weight_spaces h₁, weight_spaces h₂]
      show 1 + weight key + (1 + 0) + (1 + 0) + _ = _
      omega
    have e' : weight (w₃ ++ chr 0x2C :: w₄ ++ text') = 1 + weight text' := by
      rw [weight_append, weight_append, weight_chr _ (by decide), weight_spaces h₃, weight_spaces h₄, Nat.zero_add]; rfl
    rw [e'] at g2
    rw [e]
    simp only [membersWeight, memberWeight]
    rcases g2 with g2 | ⟨g2, g3⟩
    · left; rcases f2 with f2 | ⟨f2, _⟩ <;> omega
    · rcases f2 with f2 | ⟨f2, f3, f4⟩
      · left; omega
      · refine .inr ⟨by omega, ?_, ?_⟩
        · intro m hm
          rcases List.mem_cons.mp hm with rfl | hm
          · exact hk
          · exact f3 m hm
        · intro m hm
          rcases List.mem_cons.mp hm with rfl | hm
          · exact g3
          · exact f4 m hm

theorem elements_weight : ∀ {text : Str} {js : List (Json F)} {rest : Str}, Elements ops lits text js rest → Shaped text →
    Shaped rest ∧ (itemsWeight js + weight rest < weight text ∨ (itemsWeight js + weight rest = weight text ∧ ∀ j ∈ js, Clean j))
  | _, _, rest, .last w text j _ hw hv => fun hs => by
    obtain ⟨g1, g2⟩ := val_weight hv hs
    refine ⟨g1.right.tail, ?_⟩
    have e' : weight (w ++ chr 0x5D :: rest) = 1 + weight rest := by
      rw [weight_append, weight_chr _ (by decide), weight_spaces hw, Nat.zero_add]; rfl
    rw [e'] at g2
    simp only [itemsWeight]
    rcases g2 with g2 | ⟨g2, g3⟩
    · left; omega
    · exact .inr ⟨by omega, by simpa using g3⟩
  | _, _, rest, .more w₁ w₂ text j text' js _ h₁ h₂ hv hm => fun hs => by
    obtain ⟨g1, g2⟩ := val_weight hv hs
    obtain ⟨f1, f2⟩ := elements_weight hm g1.right
    refine ⟨f1, ?_⟩
    have e' : weight (w₁ ++ chr 0x2C :: w₂ ++ text') = 1 + weight text' := by
      rw [weight_append, weight_append, weight_chr _ (by decide), weight_spaces h₁, weight_spaces h₂, Nat.zero_add]; rfl
    rw [e'] at g2
    simp only [itemsWeight]
    rcases g2 with g2 | ⟨g2, g3⟩
    · left; rcases f2 with f2 | ⟨f2, _⟩ <;> omega
    · rcases f2 with f2 | ⟨f2, f3⟩
      · left; omega
      · refine .inr ⟨by omega, ?_⟩
        intro m hm
        rcases List.mem_cons.mp hm with rfl | hm
        · exact g3
        · exact f3 m hm

end

/-! ### Reading a printed value whose strings and keys are clean -/

theorem val_string {u r' : Str} {j' : Json F} (h : Val ops lits (chr 0x22 :: u) j' r') :
    ∃ body bs, u = body ++ chr 0x22 :: r' ∧ StrBody body bs := by
  generalize e : chr 0x22 :: u = t at h
  cases h with
  | null | true | false => simp [chr] at e
  | number c t j rest hc =>
    rw [List.cons_append, List.cons.injEq] at e
    rw [← e.1] at hc
    rcases hc with hc | hc
    · exact absurd ((digit_chr _).mp hc) (by decide)
    · exact absurd hc (by decide)
  | string body bs s rest hb _ =>
    rw [List.cons_append, List.cons.injEq] at e
    exact ⟨body, bs, e.2, hb⟩
  | emptyObject | object | emptyArray | array => simp [chr] at e

theorem val_object {u r' : Str} {j' : Json F} (h : Val ops lits (chr 0x7B :: u) j' r') :
    (∃ w, Spaces w ∧ u = w ++ chr 0x7D :: r' ∧ j' = .obj []) ∨
    ∃ w text ms, Spaces w ∧ u = w ++ text ∧ Members ops lits text ms r' ∧ j' = .obj (collapse ms) := by
  generalize e : chr 0x7B :: u = t at h
  cases h with
  | null | true | false => simp [chr] at e
  | number c t j rest hc =>
    rw [List.cons_append, List.cons.injEq] at e
    rw [← e.1] at hc
    rcases hc with hc | hc
    · exact absurd ((digit_chr _).mp hc) (by decide)
    · exact absurd hc (by decide)
  | emptyObject w rest hw =>
    rw [List.cons_append, List.cons.injEq] at e
    exact .inl ⟨w, hw, e.2, rfl⟩
  | object w text ms rest hw hm =>
    rw [List.cons_append, List.cons.injEq] at e
    exact .inr ⟨w, text, ms, hw, e.2, hm, rfl⟩
  | string | emptyArray | array => simp [chr] at e

theorem val_array {u r' : Str} {j' : Json F} (h : Val ops lits (chr 0x5B :: u) j' r') :
    (∃ w, Spaces w ∧ u = w ++ chr 0x5D :: r' ∧ j' = .arr []) ∨
    ∃ w text js, Spaces w ∧ u = w ++ text ∧ Elements ops lits text js r' ∧ j' = .arr js := by
  generalize e : chr 0x5B :: u = t at h
  cases h with
  | null | true | false => simp [chr] at e
  | number c t j rest hc =>
    rw [List.cons_append, List.cons.injEq] at e
    rw [← e.1] at hc
    rcases hc with hc | hc
    · exact absurd ((digit_chr _).mp hc) (by decide)
    · exact absurd hc (by decide)
  | emptyArray w rest hw =>
    rw [List.cons_append, List.cons.injEq] at e
    exact .inl ⟨w, hw, e.2, rfl⟩
  | array w text ms rest hw hm =>
    rw [List.cons_append, List.cons.injEq] at e
    exact .inr ⟨w, text, ms, hw, e.2, hm, rfl⟩
  | string | emptyObject | object => simp [chr] at e

theorem val_number {c : Chr} {u r' : Str} {j' : Json F} (hn : NumChar c) (h : Val ops lits (c :: u) j' r') :
    ∃ t, NumStart c ∧ (∀ d ∈ t, NumChar d) ∧ HeadIs (fun d => ¬ NumChar d) r' ∧ Number ops (c :: t) j' ∧ u = t ++ r' := by
  have no : ∀ b : UInt8, light b = false → c ≠ chr b := by
    rintro b hb rfl
    obtain ⟨b', h1, _, h2⟩ := light_numChar hn
    rw [chr_inj h1, h2] at hb
    cases hb
  generalize e : c :: u = t at h
  cases h with
  | null => exact absurd (List.cons.inj e).1 (no _ rfl)
  | true => exact absurd (List.cons.inj e).1 (no _ rfl)
  | false => exact absurd (List.cons.inj e).1 (no _ rfl)
  | number c t j rest hc ht hr hj =>
    rw [List.cons_append, List.cons.injEq] at e
    obtain ⟨rfl, e⟩ := e
    exact ⟨t, hc, ht, hr, hj, e⟩
  | string => exact absurd (List.cons.inj e).1 (no _ rfl)
  | emptyObject => exact absurd (List.cons.inj e).1 (no _ rfl)
  | object => exact absurd (List.cons.inj e).1 (no _ rfl)
  | emptyArray => exact absurd (List.cons.inj e).1 (no _ rfl)
  | array => exact absurd (List.cons.inj e).1 (no _ rfl)

theorem val_null {r r' : Str} {j' : Json F} (h : Val ops lits (c!"null" ++ r) j' r') : r' = r := by
  generalize e : c!"null" ++ r = t at h
  cases h with
  | null => exact ((List.append_cancel_left e)).symm
  | number c t j rest hc =>
    have := (List.cons.inj e).1
    rw [← this] at hc
    rcases hc with hc | hc
    · exact absurd ((digit_chr 0x6E).mp hc) (by decide)
    · exact absurd hc (by decide)
  | _ => simp [chr] at e

theorem val_true {r r' : Str} {j' : Json F} (h : Val ops lits (c!"true" ++ r) j' r') : r' = r := by
  generalize e : c!"true" ++ r = t at h
  cases h with
  | true => exact ((List.append_cancel_left e)).symm
  | number c t j rest hc =>
    have := (List.cons.inj e).1
    rw [← this] at hc
    rcases hc with hc | hc
    · exact absurd ((digit_chr 0x74).mp hc) (by decide)
    · exact absurd hc (by decide)
  | _ => simp [chr] at e

theorem val_false {r r' : Str} {j' : Json F} (h : Val ops lits (c!"false" ++ r) j' r') : r' = r := by
  generalize e : c!"false" ++ r = t at h
  cases h with
  | false => exact ((List.append_cancel_left e)).symm
  | number c t j rest hc =>
    have := (List.cons.inj e).1
    rw [← this] at hc
    rcases hc with hc | hc
    · exact absurd ((digit_chr 0x66).mp hc) (by decide)
    · exact absurd hc (by decide)
  | _ => simp [chr] at e

/-- Two ways to cut off the longest beginning of such characters are the same. -/
theorem run_unique {P : Chr → Prop} : ∀ {a b x y : Str}, (∀ c ∈ a, P c) → (∀ c ∈ b, P c) → (∀ c, x.head? = some c → ¬ P c) →
    (∀ c, y.head? = some c → ¬ P c) → a ++ x = b ++ y → a = b ∧ x = y
  | [], [], _, _, _, _, _, _, h => ⟨rfl, h⟩
  | [], d :: b, x, y, _, hb, hx, _, h => absurd (hb d (by simp)) (hx d (by rw [show x = _ from h]; rfl))
  | c :: a, [], x, y, ha, _, _, hy, h => absurd (ha c (by simp)) (hy c (by rw [show y = _ from h.symm]; rfl))
  | c :: a, d :: b, x, y, ha, hb, hx, hy, h => by
    rw [List.cons_append, List.cons_append, List.cons.injEq] at h
    obtain ⟨rfl, h⟩ := h
    obtain ⟨rfl, rfl⟩ := run_unique (fun c hc => ha c (by simp [hc])) (fun c hc => hb c (by simp [hc])) hx hy h
    exact ⟨rfl, rfl⟩

theorem spaces_cut {a b x y : Str} (ha : Spaces a) (hb : Spaces b) (hx : ∀ c, x.head? = some c → ¬ Space c)
    (hy : ∀ c, y.head? = some c → ¬ Space c) (h : a ++ x = b ++ y) : a = b ∧ x = y := run_unique ha hb hx hy h

theorem key_unique {k k' x y : Str} (h : chr 0x22 ∉ k) (h' : chr 0x22 ∉ k') (e : k ++ chr 0x22 :: x = k' ++ chr 0x22 :: y) :
    k = k' ∧ x = y := by
  obtain ⟨h1, h2⟩ := run_unique (P := fun c => c ≠ chr 0x22) (fun c hc e => h (e ▸ hc)) (fun c hc e => h' (e ▸ hc))
    (by simp) (by simp) e
  exact ⟨h1, (List.cons.inj h2).2⟩

theorem body_unique {body : Str} {bs : List UInt8} (h : StrBody body bs) : ∀ {s r r' : Str}, chr 0x22 ∉ s → chr 0x5C ∉ s →
    s ++ chr 0x22 :: r = body ++ chr 0x22 :: r' → r = r' := by
  induction h with
  | nil =>
    intro s r r' h1 _ e
    cases s with
    | nil => exact (List.cons.inj e).2
    | cons c s => exact absurd (by rw [(List.cons.inj e).1]; simp) h1
  | plain c b bs hc _ _ ih =>
    intro s r r' h1 h2 e
    cases s with
    | nil => exact absurd (List.cons.inj e).1.symm hc
    | cons d s => exact ih (fun h => h1 (by simp [h])) (fun h => h2 (by simp [h])) (List.cons.inj e).2
  | escape c i b t bs _ _ ih =>
    intro s r r' _ h2 e
    cases s with
    | nil => exact absurd (List.cons.inj e).1 (by decide)
    | cons d s => exact absurd (by rw [(List.cons.inj e).1]; simp) h2
  | unicode a b c d i neg n t bs _ _ _ ih =>
    intro s r r' _ h2 e
    cases s with
    | nil => exact absurd (List.cons.inj e).1 (by decide)
    | cons d s => exact absurd (by rw [(List.cons.inj e).1]; simp) h2

/-- The second value is what is read from the first one, printed. -/
inductive ReadAs (ops : FloatOps F) : Json F → Json F → Prop where
  | null (j) : ReadAs ops .null j
  | bool (b j) : ReadAs ops (.bool b) j
  | int (i j) : ReadAs ops (.int i) j
  | float (f j c t) : (ops.print f).map chr = c :: t → NumStart c → Number ops (c :: t) j → ReadAs ops (.float f) j
  | str (s j) : ReadAs ops (.str s) j
  | arr (js js' : List (Json F)) : js.length = js'.length → (∀ p ∈ js.zip js', ReadAs ops p.1 p.2) → ReadAs ops (.arr js) (.arr js')
  | obj (ms ms' : List (Str × Json F)) : ms.length = ms'.length → (∀ p ∈ ms.zip ms', ReadAs ops p.1.2 p.2.2) →
      ReadAs ops (.obj ms) (.obj ms')

def Inverts (ops : FloatOps F) (lits : Bool) (j : Json F) : Prop :=
  ∀ pretty base indent r j' r', HeadIs (fun d => ¬ NumChar d) r → Val ops lits (output ops pretty base indent j ++ r) j' r' →
    r' = r ∧ ReadAs ops j j'

theorem not_space (b : UInt8) (h : b ∉ ([0x09, 0x0A, 0x0B, 0x0C, 0x0D, 0x20] : List UInt8)) : ¬ Space (chr b) := by
  intro hs
  apply h
  simp only [Space, List.mem_cons, List.not_mem_nil, or_false] at hs ⊢
  rcases hs with hs | hs | hs | hs | hs | hs <;> simp [chr_inj hs]

theorem head_chr {b : UInt8} {u : Str} (h : b ∉ ([0x09, 0x0A, 0x0B, 0x0C, 0x0D, 0x20] : List UInt8)) :
    ∀ c, (chr b :: u).head? = some c → ¬ Space c := by
  intro c hc
  cases hc
  exact not_space b h

theorem numChar_not_space {c : Chr} (h : NumChar c) : ¬ Space c := by
  rcases h with ⟨b, h1, h2, rfl⟩ | h
  · apply not_space
    simp only [List.mem_cons, List.not_mem_nil, or_false]
    rintro (rfl | rfl | rfl | rfl | rfl | rfl) <;> (revert h1; decide)
  · simp only [List.mem_cons, List.not_mem_nil, or_false] at h
    rcases h with rfl | rfl | rfl | rfl | rfl <;> exact not_space _ (by decide)

theorem intChars_numChars (i : Int) : ∃ c t, intChars i = c :: t ∧ ∀ d ∈ c :: t, NumChar d := by
  obtain ⟨c, t, he, hc, ht, hc'⟩ := intLit_numChars (intChars_lit i)
  refine ⟨c, t, he, fun d hd => ?_⟩
  rcases List.mem_cons.mp hd with rfl | hd
  · exact numStart_numChar hc
  · exact .inl (ht d hd)

theorem print_numChars {f : F} (h1 : ops.print f ≠ []) (h2 : ∀ b ∈ ops.print f, NumChar (chr b)) :
    ∃ c t, (ops.print f).map chr = c :: t ∧ ∀ d ∈ c :: t, NumChar d := by
  cases h : ops.print f with
  | nil => exact absurd h h1
  | cons b bs =>
    refine ⟨chr b, bs.map chr, rfl, fun d hd => ?_⟩
    rw [← List.map_cons, ← h] at hd
    obtain ⟨x, hx, rfl⟩ := List.mem_map.mp hd
    exact h2 x hx

theorem output_head {Q : Str → Prop} {j : Json F} (h : Written ops Q j) (pretty : Bool) (base indent : Nat) (r : Str) :
    ∀ c, (output ops pretty base indent j ++ r).head? = some c → ¬ Space c := by
  intro c hc
  cases h with
  | null => rw [output] at hc; cases hc; exact not_space 0x6E (by decide)
  | bool b =>
    rw [output] at hc
    cases b <;> cases hc
    · exact not_space 0x66 (by decide)
    · exact not_space 0x74 (by decide)
  | int i =>
    obtain ⟨d, t, he, hd⟩ := intChars_numChars i
    rw [output, he] at hc
    cases hc
    exact numChar_not_space (hd _ (by simp))
  | float f h1 h2 =>
    obtain ⟨d, t, he, hd⟩ := print_numChars h1 h2
    rw [output, show (ops.print f).map Chr.ofByte = d :: t from he] at hc
    cases hc
    exact numChar_not_space (hd _ (by simp))
  | str s _ => rw [output] at hc; cases hc; exact not_space 0x22 (by decide)
  | arr js _ =>
    cases js <;> (rw [output] at hc; cases hc; exact not_space 0x5B (by decide))
  | obj ms _ _ =>
    cases ms <;> (rw [output] at hc; cases hc; exact not_space 0x7B (by decide))

theorem output_not_bracket {Q : Str → Prop} {j : Json F} (h : Written ops Q j) (pretty : Bool) (base indent : Nat) (r r' : Str)
    (b : UInt8) (hb : b = 0x7D ∨ b = 0x5D) : output ops pretty base indent j ++ r ≠ chr b :: r' := by
  have num : ∀ c : Chr, NumChar c → c ≠ chr b := by
    rintro c hc rfl
    obtain ⟨b', h1, _, h2⟩ := light_numChar hc
    rw [← chr_inj h1] at h2
    rcases hb with rfl | rfl <;> (revert h2; decide)
  intro e
  cases h with
  | null => rw [output] at e; have := chr_inj (a := 0x6E) (List.cons.inj e).1; subst this; revert hb; decide
  | bool x =>
    rw [output] at e
    cases x
    · have := chr_inj (a := 0x66) (List.cons.inj e).1; subst this; revert hb; decide
    · have := chr_inj (a := 0x74) (List.cons.inj e).1; subst this; revert hb; decide
  | int i =>
    obtain ⟨d, t, he, hd⟩ := intChars_numChars i
    rw [output, he] at e
    exact num d (hd _ (by simp)) (List.cons.inj e).1
  | float f h1 h2 =>
    obtain ⟨d, t, he, hd⟩ := print_numChars h1 h2
    rw [output, show (ops.print f).map Chr.ofByte = d :: t from he] at e
    exact num d (hd _ (by simp)) (List.cons.inj e).1
  | str s _ => rw [output] at e; have := chr_inj (a := 0x22) (List.cons.inj e).1; subst this; revert hb; decide
  | arr js _ =>
    cases js <;> (rw [output] at e; have := chr_inj (a := 0x5B) (List.cons.inj e).1; subst this; revert hb; decide)
  | obj ms _ _ =>
    cases ms <;> (rw [output] at e; have := chr_inj (a := 0x7B) (List.cons.inj e).1; subst this; revert hb; decide)

theorem val_noSpace {text rest : Str} {j : Json F} (h : Val ops lits text j rest) : ∀ c, text.head? = some c → ¬ Space c := by
  obtain ⟨b, u, rfl, _, hs, _⟩ := val_head h
  intro c hc
  cases hc
  exact hs

theorem elements_noSpace {text rest : Str} {j : List (Json F)} (h : Elements ops lits text j rest) :
    ∀ c, text.head? = some c → ¬ Space c := by
  obtain ⟨b, u, rfl, _, hs, _⟩ := elements_head h
  intro c hc
  cases hc
  exact hs

theorem members_noSpace {text rest : Str} {j : List (Str × Json F)} (h : Members ops lits text j rest) :
    ∀ c, text.head? = some c → ¬ Space c := by
  obtain ⟨u, rfl⟩ := members_head h
  exact head_chr (by decide)

theorem number_inverts {c : Chr} {t r r' : Str} {j' : Json F} (hd : ∀ d ∈ c :: t, NumChar d) (hr : HeadIs (fun d => ¬ NumChar d) r)
    (h : Val ops lits (c :: t ++ r) j' r') : r' = r ∧ NumStart c ∧ Number ops (c :: t) j' := by
  obtain ⟨t', h1, h2, h3, h4, h5⟩ := val_number (hd c (by simp)) h
  obtain ⟨rfl, rfl⟩ := run_unique (P := NumChar) (fun d h => hd d (by simp [h])) h2 (fun d h => (hr d h).2) (fun d h => (h3 d h).2) h5
  exact ⟨rfl, h1, h4⟩

theorem members_invert {Q : Str → Prop} (pretty : Bool) (base indent : Nat) (ws rest : Str) (hw : Spaces ws) :
    ∀ (ms : List (Str × Json F)) (k : Str) (v : Json F), chr 0x22 ∉ k → Written ops Q v → Inverts ops lits v →
      (∀ m ∈ ms, chr 0x22 ∉ m.1 ∧ Written ops Q m.2 ∧ Inverts ops lits m.2) → ∀ ms' r',
      Members ops lits (chr 0x22 :: k ++ chr 0x22 :: ([] : Str) ++ chr 0x3A :: whenPretty pretty c!" " ++
        (output ops pretty base (indent + base) v ++
          (outputMembers ops pretty base indent ms ++ (ws ++ chr 0x7D :: rest)))) ms' r' →
      r' = rest ∧ ((k, v) :: ms).map Prod.fst = ms'.map Prod.fst ∧ ∀ p ∈ ((k, v) :: ms).zip ms', ReadAs ops p.1.2 p.2.2 := by
  intro ms
  induction ms with
  | nil =>
    intro k v hk hwv hv _ ms' r' h
    have hr : HeadIs (fun d => ¬ NumChar d) (ws ++ chr 0x7D :: rest) := headIs_follow (.inl rfl) hw rest
    generalize e : chr 0x22 :: k ++ chr 0x22 :: ([] : Str) ++ chr 0x3A :: whenPretty pretty c!" " ++
        (output ops pretty base (indent + base) v ++
          (outputMembers ops pretty base indent [] ++ (ws ++ chr 0x7D :: rest))) = t at h
    simp only [outputMembers, List.nil_append, List.cons_append, List.append_assoc] at e
    cases h with
    | last key w₁ w₂ w₃ text j _ hk' h₁ h₂ h₃ hv' =>
      simp only [List.cons_append, List.append_assoc, List.cons.injEq, true_and] at e
      obtain ⟨rfl, e1⟩ := key_unique hk hk' e
      obtain ⟨rfl, e2⟩ := spaces_cut (a := []) (b := w₁) (by simp [Spaces]) h₁ (head_chr (by decide)) (head_chr (by decide)) e1
      obtain ⟨_, rfl⟩ := spaces_cut (spaces_whenPretty _ spaces_sp) h₂ (output_head hwv _ _ _ _) (val_noSpace hv') (List.cons.inj e2).2
      clear e e1 e2
      obtain ⟨e, hj⟩ := hv _ _ _ _ _ _ hr hv'
      obtain ⟨_, e⟩ := spaces_cut h₃ hw (head_chr (by decide)) (head_chr (by decide)) e
      exact ⟨(List.cons.inj e).2, rfl, by simpa using hj⟩
    | more key w₁ w₂ w₃ w₄ text j text' ms _ hk' h₁ h₂ h₃ h₄ hv' hm =>
      simp only [List.cons_append, List.append_assoc, List.cons.injEq, true_and] at e
      obtain ⟨rfl, e1⟩ := key_unique hk hk' e
      obtain ⟨rfl, e2⟩ := spaces_cut (a := []) (b := w₁) (by simp [Spaces]) h₁ (head_chr (by decide)) (head_chr (by decide)) e1
      obtain ⟨_, rfl⟩ := spaces_cut (spaces_whenPretty _ spaces_sp) h₂ (output_head hwv _ _ _ _) (val_noSpace hv') (List.cons.inj e2).2
      clear e e1 e2
      obtain ⟨e, hj⟩ := hv _ _ _ _ _ _ hr hv'
      rw [List.append_assoc] at e
      obtain ⟨_, e⟩ := spaces_cut h₃ hw (head_chr (by decide)) (head_chr (by decide)) e
      exact absurd (List.cons.inj e).1 (by decide)
  | cons m ms ih =>
    obtain ⟨k₂, v₂⟩ := m
    intro k v hk hwv hv hms ms' r' h
    have hm₂ := hms (k₂, v₂) (.head _)
    have ih := ih k₂ v₂ hm₂.1 hm₂.2.1 hm₂.2.2 fun m hm => hms m (.tail _ hm)
    generalize e : chr 0x22 :: k ++ chr 0x22 :: ([] : Str) ++ chr 0x3A :: whenPretty pretty c!" " ++
        (output ops pretty base (indent + base) v ++
          (outputMembers ops pretty base indent ((k₂, v₂) :: ms) ++ (ws ++ chr 0x7D :: rest))) = t at h
    have ho : outputMembers ops pretty base indent ((k₂, v₂) :: ms) ++ (ws ++ chr 0x7D :: rest) =
        ([] : Str) ++ chr 0x2C :: ((whenPretty pretty c!"\n" ++ whenPretty pretty (spaces indent)) ++
          (chr 0x22 :: k₂ ++ chr 0x22 :: ([] : Str) ++ chr 0x3A :: whenPretty pretty c!" " ++
            (output ops pretty base (indent + base) v₂ ++
              (outputMembers ops pretty base indent ms ++ (ws ++ chr 0x7D :: rest))))) := by
      rw [outputMembers, outputMember]
      simp [chr]
    rw [ho] at e
    have hr : HeadIs (fun d => ¬ NumChar d) (([] : Str) ++ chr 0x2C :: ((whenPretty pretty c!"\n" ++ whenPretty pretty (spaces indent)) ++
          (chr 0x22 :: k₂ ++ chr 0x22 :: ([] : Str) ++ chr 0x3A :: whenPretty pretty c!" " ++
            (output ops pretty base (indent + base) v₂ ++
              (outputMembers ops pretty base indent ms ++ (ws ++ chr 0x7D :: rest)))))) :=
      headIs_follow (.inr (.inr rfl)) (by simp [Spaces]) _
    generalize hR : (([] : Str) ++ chr 0x2C :: ((whenPretty pretty c!"\n" ++ whenPretty pretty (spaces indent)) ++
          (chr 0x22 :: k₂ ++ chr 0x22 :: ([] : Str) ++ chr 0x3A :: whenPretty pretty c!" " ++
            (output ops pretty base (indent + base) v₂ ++
              (outputMembers ops pretty base indent ms ++ (ws ++ chr 0x7D :: rest)))))) = R at hr e
    simp only [List.cons_append, List.append_assoc, List.nil_append] at e
    have hsp : Spaces (whenPretty pretty c!"\n" ++ whenPretty pretty (spaces indent)) :=
      spaces_app (spaces_whenPretty _ spaces_lf) (spaces_whenPretty _ (spaces_spaces _))
    cases h with
    | last key w₁ w₂ w₃ text j _ hk' h₁ h₂ h₃ hv' =>
      simp only [List.cons_append, List.append_assoc, List.cons.injEq, true_and] at e
      obtain ⟨rfl, e1⟩ := key_unique hk hk' e
      obtain ⟨rfl, e2⟩ := spaces_cut (a := []) (b := w₁) (by simp [Spaces]) h₁ (head_chr (by decide)) (head_chr (by decide)) e1
      obtain ⟨_, rfl⟩ := spaces_cut (spaces_whenPretty _ spaces_sp) h₂ (output_head hwv _ _ _ _) (val_noSpace hv') (List.cons.inj e2).2
      clear e e1 e2
      obtain ⟨e, hj⟩ := hv _ _ _ _ _ _ hr hv'
      rw [← hR] at e
      obtain ⟨_, e⟩ := spaces_cut h₃ (by simp [Spaces]) (head_chr (by decide)) (head_chr (by decide)) e
      exact absurd (List.cons.inj e).1 (by decide)
    | more key w₁ w₂ w₃ w₄ text j text' ms₂ _ hk' h₁ h₂ h₃ h₄ hv' hm =>
      simp only [List.cons_append, List.append_assoc, List.cons.injEq, true_and] at e
      obtain ⟨rfl, e1⟩ := key_unique hk hk' e
      obtain ⟨rfl, e2⟩ := spaces_cut (a := []) (b := w₁) (by simp [Spaces]) h₁ (head_chr (by decide)) (head_chr (by decide)) e1
      obtain ⟨_, rfl⟩ := spaces_cut (spaces_whenPretty _ spaces_sp) h₂ (output_head hwv _ _ _ _) (val_noSpace hv') (List.cons.inj e2).2
      clear e e1 e2
      obtain ⟨e, hj⟩ := hv _ _ _ _ _ _ hr hv'
      rw [← hR, List.append_assoc] at e
      obtain ⟨_, e⟩ := spaces_cut h₃ (by simp [Spaces]) (head_chr (by decide)) (head_chr (by decide)) e
      obtain ⟨_, rfl⟩ := spaces_cut h₄ hsp (members_noSpace hm) (head_chr (by decide)) (List.cons.inj e).2
      obtain ⟨g1, g2, g3⟩ := ih _ _ hm
      refine ⟨g1, by rw [List.map_cons, g2, List.map_cons], ?_⟩
      intro p hp
      rw [List.zip_cons_cons] at hp
      rcases List.mem_cons.mp hp with rfl | hp
      · exact hj
      · exact g3 p hp

theorem items_invert {Q : Str → Prop} (pretty : Bool) (base indent : Nat) (ws rest : Str) (hw : Spaces ws) :
    ∀ (js : List (Json F)) (v : Json F), Written ops Q v → Inverts ops lits v → (∀ j ∈ js, Written ops Q j ∧ Inverts ops lits j) →
      ∀ js' r', Elements ops lits (output ops pretty base (indent + base) v ++
        (outputItems ops pretty base indent js ++ (ws ++ chr 0x5D :: rest))) js' r' →
      r' = rest ∧ (v :: js).length = js'.length ∧ ∀ p ∈ (v :: js).zip js', ReadAs ops p.1 p.2 := by
  intro js
  induction js with
  | nil =>
    intro v hwv hv _ js' r' h
    have hr : HeadIs (fun d => ¬ NumChar d) (ws ++ chr 0x5D :: rest) := headIs_follow (.inr (.inl rfl)) hw rest
    rw [outputItems, List.nil_append] at h
    cases h with
    | last w text j _ hw' hv' =>
      obtain ⟨e, hj⟩ := hv _ _ _ _ _ _ hr hv'
      obtain ⟨_, e⟩ := spaces_cut hw' hw (head_chr (by decide)) (head_chr (by decide)) e
      exact ⟨(List.cons.inj e).2, rfl, by simpa using hj⟩
    | more w₁ w₂ text j text' js _ h₁ h₂ hv' hm =>
      obtain ⟨e, hj⟩ := hv _ _ _ _ _ _ hr hv'
      rw [List.append_assoc] at e
      obtain ⟨_, e⟩ := spaces_cut h₁ hw (head_chr (by decide)) (head_chr (by decide)) e
      exact absurd (List.cons.inj e).1 (by decide)
  | cons v₂ js ih =>
    intro v hwv hv hjs js' r' h
    have hv₂ := hjs v₂ (.head _)
    have ih := ih v₂ hv₂.1 hv₂.2 fun m hm => hjs m (.tail _ hm)
    have ho : outputItems ops pretty base indent (v₂ :: js) ++ (ws ++ chr 0x5D :: rest) =
        ([] : Str) ++ chr 0x2C :: ((whenPretty pretty c!"\n" ++ whenPretty pretty (spaces indent)) ++
            (output ops pretty base (indent + base) v₂ ++
              (outputItems ops pretty base indent js ++ (ws ++ chr 0x5D :: rest)))) := by
      rw [outputItems]
      simp [chr]
    rw [ho] at h
    have hr : HeadIs (fun d => ¬ NumChar d) (([] : Str) ++ chr 0x2C :: ((whenPretty pretty c!"\n" ++ whenPretty pretty (spaces indent)) ++
            (output ops pretty base (indent + base) v₂ ++
              (outputItems ops pretty base indent js ++ (ws ++ chr 0x5D :: rest))))) :=
      headIs_follow (.inr (.inr rfl)) (by simp [Spaces]) _
    have hsp : Spaces (whenPretty pretty c!"\n" ++ whenPretty pretty (spaces indent)) :=
      spaces_app (spaces_whenPretty _ spaces_lf) (spaces_whenPretty _ (spaces_spaces _))
    cases h with
    | last w text j _ hw' hv' =>
      obtain ⟨e, hj⟩ := hv _ _ _ _ _ _ hr hv'
      obtain ⟨_, e⟩ := spaces_cut hw' (by simp [Spaces]) (head_chr (by decide)) (head_chr (by decide)) e
      exact absurd (List.cons.inj e).1 (by decide)
    | more w₁ w₂ text j text' js₂ _ h₁ h₂ hv' hm =>
      obtain ⟨e, hj⟩ := hv _ _ _ _ _ _ hr hv'
      rw [List.append_assoc] at e
      obtain ⟨_, e⟩ := spaces_cut h₁ (by simp [Spaces]) (head_chr (by decide)) (head_chr (by decide)) e
      obtain ⟨_, rfl⟩ := spaces_cut h₂ hsp (elements_noSpace hm) (output_head hv₂.1 _ _ _ _) (List.cons.inj e).2
      obtain ⟨g1, g2, g3⟩ := ih _ _ hm
      refine ⟨g1, by rw [List.length_cons, g2, List.length_cons], ?_⟩
      intro p hp
      rw [List.zip_cons_cons] at hp
      rcases List.mem_cons.mp hp with rfl | hp
      · exact hj
      · exact g3 p hp

theorem inverts {Q : Str → Prop} {j : Json F} (h : Written ops Q j) : Clean j → UniqueKeys j → Inverts ops lits j := by
  induction h with
  | null =>
    intro _ _ pretty base indent r j' r' _ h
    rw [output] at h
    exact ⟨val_null h, .null _⟩
  | bool b =>
    intro _ _ pretty base indent r j' r' _ h
    rw [output] at h
    cases b
    · exact ⟨val_false h, .bool _ _⟩
    · exact ⟨val_true h, .bool _ _⟩
  | int i =>
    intro _ _ pretty base indent r j' r' hr h
    obtain ⟨c, t, he, hd⟩ := intChars_numChars i
    rw [output, he] at h
    exact ⟨(number_inverts hd hr h).1, .int _ _⟩
  | float f h1 h2 =>
    intro _ _ pretty base indent r j' r' hr h
    obtain ⟨c, t, he, hd⟩ := print_numChars h1 h2
    rw [output, show (ops.print f).map Chr.ofByte = c :: t from he] at h
    obtain ⟨g1, g2, g3⟩ := number_inverts hd hr h
    exact ⟨g1, .float f _ c t he g2 g3⟩
  | str s _ =>
    intro hc _ pretty base indent r j' r' _ h
    cases hc with
    | str _ q b =>
      rw [output, show c!"\"" ++ s ++ c!"\"" ++ r = chr 0x22 :: (s ++ chr 0x22 :: r) by simp [chr]] at h
      obtain ⟨body, bs, e, hb⟩ := val_string h
      exact ⟨(body_unique hb q b e).symm, .str _ _⟩
  | arr js hj ih =>
    intro hc hu pretty base indent r j' r' _ h
    cases hc with
    | arr _ hc =>
    cases hu with
    | arr _ hu =>
      have hsp := spaces_whenPretty pretty (spaces_spaces (indent - base))
      cases js with
      | nil =>
        rw [output, show c!"[" ++ [] ++ whenPretty pretty (spaces (indent - base)) ++ c!"]" ++ r =
          chr 0x5B :: (whenPretty pretty (spaces (indent - base)) ++ chr 0x5D :: r) by simp [chr]] at h
        rcases val_array h with ⟨w, hw, e, rfl⟩ | ⟨w, text, js, hw, e, he, rfl⟩
        · obtain ⟨_, e⟩ := spaces_cut hsp hw (head_chr (by decide)) (head_chr (by decide)) e
          exact ⟨(List.cons.inj e).2.symm, .arr _ _ rfl (by simp)⟩
        · obtain ⟨_, rfl⟩ := spaces_cut hsp hw (head_chr (by decide)) (elements_noSpace he) e
          obtain ⟨b, u, e, _, _, _, hb⟩ := elements_head he
          exact absurd (chr_inj (List.cons.inj e).1).symm hb
      | cons j js =>
        have ho : output ops pretty base indent (.arr (j :: js)) ++ r =
            chr 0x5B :: ((whenPretty pretty c!"\n" ++ whenPretty pretty (spaces indent)) ++
              (output ops pretty base (indent + base) j ++ (outputItems ops pretty base indent js ++
                ((whenPretty pretty c!"\n" ++ whenPretty pretty (spaces (indent - base))) ++ chr 0x5D :: r)))) := by
          rw [output]; simp [chr]
        rw [ho] at h
        have hs1 := spaces_app (spaces_whenPretty pretty spaces_lf) (spaces_whenPretty pretty (spaces_spaces indent))
        rcases val_array h with ⟨w, hw, e, rfl⟩ | ⟨w, text, js', hw, e, he, rfl⟩
        · exfalso
          obtain ⟨_, e⟩ := spaces_cut hs1 hw (output_head (hj j (.head _)) _ _ _ _) (head_chr (by decide)) e
          have hrest : HeadIs (fun d => ¬ NumChar d) (outputItems ops pretty base indent js ++
                ((whenPretty pretty c!"\n" ++ whenPretty pretty (spaces (indent - base))) ++ chr 0x5D :: r)) := by
            cases js with
            | nil => exact headIs_follow (.inr (.inl rfl)) (spaces_app (spaces_whenPretty _ spaces_lf) hsp) r
            | cons => rw [outputItems]; exact headIs_follow (w := []) (.inr (.inr rfl)) (by simp [Spaces]) _
          exact output_not_bracket (hj j (.head _)) _ _ _ _ _ 0x5D (.inr rfl) e
        · obtain ⟨_, rfl⟩ := spaces_cut hs1 hw (output_head (hj j (.head _)) _ _ _ _) (elements_noSpace he) e
          obtain ⟨g1, g2, g3⟩ := items_invert (Q := Q) pretty base indent _ r (spaces_app (spaces_whenPretty _ spaces_lf) hsp) js j
            (hj j (.head _)) (ih j (.head _) (hc j (.head _)) (hu j (.head _)))
            (fun x hx => ⟨hj x (.tail _ hx), ih x (.tail _ hx) (hc x (.tail _ hx)) (hu x (.tail _ hx))⟩) _ _ he
          exact ⟨g1, .arr _ _ g2 g3⟩
  | obj ms hk hj ih =>
    intro hc hu pretty base indent r j' r' _ h
    cases hc with
    | obj _ hq hc =>
    cases hu with
    | obj _ hn hu =>
      have hsp := spaces_whenPretty pretty (spaces_spaces (indent - base))
      cases ms with
      | nil =>
        rw [output, show c!"{" ++ [] ++ whenPretty pretty (spaces (indent - base)) ++ c!"}" ++ r =
          chr 0x7B :: (whenPretty pretty (spaces (indent - base)) ++ chr 0x7D :: r) by simp [chr]] at h
        rcases val_object h with ⟨w, hw, e, rfl⟩ | ⟨w, text, js, hw, e, he, rfl⟩
        · obtain ⟨_, e⟩ := spaces_cut hsp hw (head_chr (by decide)) (head_chr (by decide)) e
          exact ⟨(List.cons.inj e).2.symm, .obj _ _ rfl (by simp)⟩
        · obtain ⟨_, rfl⟩ := spaces_cut hsp hw (head_chr (by decide)) (members_noSpace he) e
          obtain ⟨u, e⟩ := members_head he
          exact absurd (chr_inj (List.cons.inj e).1) (by decide)
      | cons m ms =>
        obtain ⟨k, v⟩ := m
        have ho : output ops pretty base indent (.obj ((k, v) :: ms)) ++ r =
            chr 0x7B :: ((whenPretty pretty c!"\n" ++ whenPretty pretty (spaces indent)) ++
              (chr 0x22 :: k ++ chr 0x22 :: ([] : Str) ++ chr 0x3A :: whenPretty pretty c!" " ++
              (output ops pretty base (indent + base) v ++ (outputMembers ops pretty base indent ms ++
                ((whenPretty pretty c!"\n" ++ whenPretty pretty (spaces (indent - base))) ++ chr 0x7D :: r))))) := by
          rw [output, outputMember]; simp [chr]
        rw [ho] at h
        have hs1 := spaces_app (spaces_whenPretty pretty spaces_lf) (spaces_whenPretty pretty (spaces_spaces indent))
        rcases val_object h with ⟨w, hw, e, rfl⟩ | ⟨w, text, ms', hw, e, he, rfl⟩
        · obtain ⟨_, e⟩ := spaces_cut hs1 hw (head_chr (by decide)) (head_chr (by decide)) e
          exact absurd (chr_inj (List.cons.inj e).1) (by decide)
        · obtain ⟨_, rfl⟩ := spaces_cut hs1 hw (head_chr (by decide)) (members_noSpace he) e
          obtain ⟨g1, g2, g3⟩ := members_invert (Q := Q) pretty base indent _ r (spaces_app (spaces_whenPretty _ spaces_lf) hsp) ms k v
            (hq (k, v) (.head _)) (hj (k, v) (.head _)) (ih (k, v) (.head _) (hc (k, v) (.head _)) (hu (k, v) (.head _)))
            (fun x hx => ⟨hq x (.tail _ hx), hj x (.tail _ hx), ih x (.tail _ hx) (hc x (.tail _ hx)) (hu x (.tail _ hx))⟩) _ _ he
          rw [collapse_nodup ms' (g2 ▸ hn)]
          exact ⟨g1, .obj _ _ (by simpa using congrArg List.length g2) g3⟩

theorem str_print {f : F} (h : ∀ b ∈ ops.print f, NumChar (chr b)) : Str.str ((ops.print f).map chr) = ops.print f := by
  have : ∀ bs : List UInt8, (∀ b ∈ bs, NumChar (chr b)) → Str.str (bs.map chr) = bs := by
    intro bs
    induction bs with
    | nil => intro _; rfl
    | cons b bs ih =>
      intro h
      obtain ⟨b', h1, h2, _⟩ := light_numChar (h b (by simp))
      rw [← chr_inj h1] at h2
      rw [List.map_cons, show Str.str (chr b :: bs.map chr) = b :: Str.str (bs.map chr) by simp [Str.str, chr, Chr.printed, h2],
        ih fun b hb => h b (by simp [hb])]
  exact this _ h

theorem zip_self {α : Type} : ∀ l : List α, l.zip l = l.map fun x => (x, x)
  | [] => rfl
  | x :: l => by rw [List.zip_cons_cons, zip_self l, List.map_cons]

theorem printable_of_readAs {Q : Str → Prop} (hQ : ∀ s, Q s → Ascii s) {j : Json F} (h : Written ops Q j) : Clean j → UniqueKeys j →
    ReadAs ops j j → Printable ops true j := by
  have asc : ∀ s, Q s → chr 0x22 ∉ s → Quotable true s := by
    intro s hs hq
    refine ⟨fun c hc => ?_, hq, fun _ => hQ s hs⟩
    obtain ⟨b, h1, h2, rfl⟩ := hQ s hs c hc
    exact .one b h1 h2
  induction h with
  | null => intros; exact .null rfl
  | bool b => intros; exact .bool b rfl
  | int i =>
    intro hc _ _
    cases hc with
    | int _ h1 h2 => exact .int i h1 h2
  | float f h1 h2 =>
    intro _ _ hr
    cases hr with
    | float _ _ c t he hs hn =>
      refine .float f ⟨c, t, he, hs, fun d hd => ?_, ?_⟩
      · obtain ⟨c', t', he', hd'⟩ := print_numChars h1 h2
        rw [he] at he'
        cases he'
        exact hd' d (by simp [hd])
      · rw [← he] at hn ⊢
        generalize e : (ops.print f).map chr = x at hn
        cases hn with
        | float _ _ hf hv =>
          rw [← e, str_print h2] at hv
          exact ⟨hf, hv⟩
  | str s hs =>
    intro hc _ _
    cases hc with
    | str _ q b => exact .str s (asc s hs q) b
  | arr js _ ih =>
    intro hc hu hr
    cases hc with
    | arr _ hc =>
    cases hu with
    | arr _ hu =>
    cases hr with
    | arr _ _ _ hr =>
      refine .arr js fun x hx => ih x hx (hc x hx) (hu x hx) ?_
      refine hr (x, x) ?_
      rw [zip_self]
      exact List.mem_map.mpr ⟨x, hx, rfl⟩
  | obj ms hk _ ih =>
    intro hc hu hr
    cases hc with
    | obj _ hq hc =>
    cases hu with
    | obj _ hn hu =>
    cases hr with
    | obj _ _ _ hr =>
      refine .obj ms hn (fun m hm => asc m.1 (hk m hm) (hq m hm)) fun x hx => ih x hx (hc x hx) (hu x hx) ?_
      refine hr (x, x) ?_
      rw [zip_self]
      exact List.mem_map.mpr ⟨x, hx, rfl⟩

/-- A value that is read from what it prints as is `Printable`. -/
theorem printable_of_read {Q : Str → Prop} (hQ : ∀ s, Q s → Ascii s) {j : Json F} (hw : Written ops Q j) (hu : UniqueKeys j)
    {pretty : Bool} {base indent : Nat} (h : Document ops true (output ops pretty base indent j) j) : Printable ops true j := by
  have hs : Shaped (output ops pretty base indent j) := written_all (P := fun c => Shape c.data) (fun b h1 h2 => .one b h1 h2)
    (fun s h c hc => by obtain ⟨b, h1, h2, rfl⟩ := hQ s h c hc; exact .one b h1 h2) hw pretty base indent
  obtain ⟨w, body, rest, ms, hsp, e, hv, -, -⟩ := h
  have e2 : w = [] := (spaces_cut (a := []) (x := output ops pretty base indent j) (by simp [Spaces]) hsp
    (by simpa using output_head hw pretty base indent []) (val_noSpace hv) (by rw [List.nil_append, e])).1.symm
  subst e2
  rw [List.nil_append] at e
  have h1 := val_weight hv (e ▸ hs)
  have h2 := weight_output hw pretty base indent
  rw [e] at h2
  rcases h1.2 with h3 | ⟨_, hc⟩
  · omega
  · rw [← e, ← List.append_nil (output ops pretty base indent j)] at hv
    exact printable_of_readAs hQ hw hc hu (inverts hw hc hu pretty base indent [] j rest (by intro c hc; cases hc) hv).2

end Caitlyn
