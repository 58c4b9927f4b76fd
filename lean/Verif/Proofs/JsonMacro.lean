import Verif.Model.JsonMacro
import Verif.Spec.JsonMacro
import Verif.Proofs.JsonComplete

/-! # White space between the tokens of a JSON text -/

namespace Caitlyn.JsonMacro
open Spec

variable {F : Type}

/-- The two texts have the same tokens, and white space in the same places, up to their ends. No token has a `\`. -/
inductive Same : Str → Str → Prop where
  | spaces (w w') : Spaces w → Spaces w' → Same w w'
  | token (w w' c s t) : Spaces w → Spaces w' → (w = [] ↔ w' = []) → ¬ Space c → c ≠ chr 0x22 → c ≠ chr 0x5C →
      Same s t → Same (w ++ c :: s) (w' ++ c :: t)
  | literal (w w' body s t) : Spaces w → Spaces w' → (w = [] ↔ w' = []) → chr 0x22 ∉ body → chr 0x5C ∉ body →
      Same s t → Same (w ++ chr 0x22 :: (body ++ chr 0x22 :: s)) (w' ++ chr 0x22 :: (body ++ chr 0x22 :: t))

theorem Same.symm {s t : Str} (h : Same s t) : Same t s := by
  induction h with
  | spaces w w' h h' => exact .spaces _ _ h' h
  | token w w' c s t h h' e a b d _ ih => exact .token _ _ _ _ _ h' h e.symm a b d ih
  | literal w w' body s t h h' e a b _ ih => exact .literal _ _ _ _ _ h' h e.symm a b ih

theorem space_quote : ¬ Space (chr 0x22) := by unfold Space; decide

theorem span_unique : ∀ {w w' : Str} {c c' : Chr} {s s' : Str}, Spaces w → Spaces w' → ¬ Space c → ¬ Space c' →
    w ++ c :: s = w' ++ c' :: s' → w = w' ∧ c = c' ∧ s = s'
  | [], [], _, _, _, _, _, _, _, _, h => by simpa using h
  | [], d :: w', c, c', s, s', _, hw', hc, _, h => by
    simp only [List.nil_append, List.cons_append, List.cons.injEq] at h
    exact absurd (h.1 ▸ hw' d (by simp)) hc
  | d :: w, [], c, c', s, s', hw, _, _, hc', h => by
    simp only [List.nil_append, List.cons_append, List.cons.injEq] at h
    exact absurd (h.1 ▸ hw d (by simp)) hc'
  | d :: w, d' :: w', c, c', s, s', hw, hw', hc, hc', h => by
    simp only [List.cons_append, List.cons.injEq] at h
    obtain ⟨a, b, e⟩ := span_unique (fun x hx => hw x (by simp [hx])) (fun x hx => hw' x (by simp [hx])) hc hc' h.2
    exact ⟨by rw [h.1, a], b, e⟩

theorem spaces_not {w w' : Str} {c : Chr} {s : Str} (hw : Spaces w) (hc : ¬ Space c) : w ≠ w' ++ c :: s := by
  rintro rfl
  exact hc (hw c (by simp))

theorem nilSpaces : Spaces [] := fun _ h => by cases h

/-- White space before a token. -/
theorem Same.skip {w s t : Str} {c : Chr} (h : Same (w ++ c :: s) t) (hw : Spaces w) (hc : ¬ Space c) :
    ∃ w' t', t = w' ++ t' ∧ Spaces w' ∧ (w = [] ↔ w' = []) ∧ Same (c :: s) t' := by
  generalize hx : w ++ c :: s = x at h
  cases h with
  | spaces v v' h h' => exact absurd hx.symm (spaces_not h hc)
  | token v v' d u t h h' e a b d' hs =>
    obtain ⟨rfl, rfl, rfl⟩ := span_unique hw h hc a hx
    exact ⟨v', _, rfl, h', e, .token [] [] _ _ _ nilSpaces nilSpaces Iff.rfl a b d' hs⟩
  | literal v v' body u t h h' e a b hs =>
    obtain ⟨rfl, rfl, rfl⟩ := span_unique hw h hc space_quote hx
    exact ⟨v', _, rfl, h', e, .literal [] [] _ _ _ nilSpaces nilSpaces Iff.rfl a b hs⟩

theorem Same.cons {s t : Str} {c : Chr} (h : Same (c :: s) t) (hc : ¬ Space c) (hq : c ≠ chr 0x22) :
    ∃ t', t = c :: t' ∧ Same s t' := by
  generalize hx : c :: s = x at h
  cases h with
  | spaces v v' h h' => exact absurd hx.symm (spaces_not (w' := []) h hc)
  | token v v' d u t h h' e a b d' hs =>
    obtain ⟨rfl, rfl, rfl⟩ := span_unique nilSpaces h hc a (show [] ++ c :: s = _ from hx)
    rw [e.mp rfl]
    exact ⟨_, rfl, hs⟩
  | literal v v' body u t h h' e a b hs =>
    obtain ⟨rfl, rfl, rfl⟩ := span_unique nilSpaces h hc space_quote (show [] ++ c :: s = _ from hx)
    exact absurd rfl hq

theorem Same.run : ∀ {r s t : Str}, Same (r ++ s) t → (∀ c ∈ r, ¬ Space c ∧ c ≠ chr 0x22) →
    ∃ t', t = r ++ t' ∧ Same s t'
  | [], s, t, h, _ => ⟨t, rfl, h⟩
  | c :: r, s, t, h, hr => by
    obtain ⟨t₁, rfl, h₁⟩ := Same.cons h (hr c (by simp)).1 (hr c (by simp)).2
    obtain ⟨t₂, rfl, h₂⟩ := Same.run h₁ fun d hd => hr d (by simp [hd])
    exact ⟨t₂, rfl, h₂⟩

/-- A literal. -/
theorem Same.quoted {s t : Str} (h : Same (chr 0x22 :: s) t) :
    ∃ body u t', s = body ++ chr 0x22 :: u ∧ t = chr 0x22 :: (body ++ chr 0x22 :: t') ∧ chr 0x22 ∉ body ∧
      chr 0x5C ∉ body ∧ Same u t' := by
  generalize hx : chr 0x22 :: s = x at h
  cases h with
  | spaces v v' h h' => exact absurd hx.symm (spaces_not (w' := []) h space_quote)
  | token v v' d u t h h' e a b d' hs =>
    obtain ⟨rfl, rfl, rfl⟩ := span_unique nilSpaces h space_quote a (show [] ++ chr 0x22 :: s = _ from hx)
    exact absurd rfl b
  | literal v v' body u t h h' e a b hs =>
    obtain ⟨rfl, -, rfl⟩ := span_unique nilSpaces h space_quote space_quote (show [] ++ chr 0x22 :: s = _ from hx)
    rw [e.mp rfl]
    exact ⟨body, u, t, rfl, rfl, a, b, hs⟩

theorem first_quote : ∀ {x y s s' : Str}, chr 0x22 ∉ x → chr 0x22 ∉ y → x ++ chr 0x22 :: s = y ++ chr 0x22 :: s' →
    x = y ∧ s = s'
  | [], [], _, _, _, _, h => by simpa using h
  | [], d :: y, _, _, _, hy, h => by
    simp only [List.nil_append, List.cons_append, List.cons.injEq] at h
    exact absurd (by simp [h.1]) hy
  | d :: x, [], _, _, hx, _, h => by
    simp only [List.nil_append, List.cons_append, List.cons.injEq] at h
    exact absurd (by simp [h.1]) hx
  | d :: x, d' :: y, _, _, hx, hy, h => by
    simp only [List.cons_append, List.cons.injEq] at h
    obtain ⟨a, b⟩ := first_quote (fun m => hx (by simp [m])) (fun m => hy (by simp [m])) h.2
    exact ⟨by rw [h.1, a], b⟩

theorem body_unique {x : Str} {bs : List UInt8} (hb : StrBody x bs) : ∀ {y s s' : Str}, chr 0x22 ∉ y → chr 0x5C ∉ y →
    x ++ chr 0x22 :: s = y ++ chr 0x22 :: s' → x = y ∧ s = s' := by
  induction hb with
  | nil => exact fun hy _ h => first_quote (by simp) hy h
  | plain c x bs h1 h2 _ ih =>
    intro y s s' hy hy' h
    cases y with
    | nil =>
      simp only [List.nil_append, List.cons_append, List.cons.injEq] at h
      exact absurd h.1 h1
    | cons d y =>
      simp only [List.cons_append, List.cons.injEq] at h
      obtain ⟨a, b⟩ := ih (fun m => hy (by simp [m])) (fun m => hy' (by simp [m])) h.2
      exact ⟨by rw [h.1, a], b⟩
  | escape c i b x bs _ _ ih =>
    intro y s s' hy hy' h
    cases y with
    | nil =>
      simp only [List.nil_append, List.cons_append, List.cons.injEq] at h
      exact absurd h.1 (by decide)
    | cons d y =>
      simp only [List.cons_append, List.cons.injEq] at h
      exact absurd (by simp [h.1]) hy'
  | unicode h₁ h₂ h₃ h₄ i neg n x bs _ _ _ ih =>
    intro y s s' hy hy' h
    cases y with
    | nil =>
      simp only [List.nil_append, List.cons_append, List.cons.injEq] at h
      exact absurd h.1 (by decide)
    | cons d y =>
      simp only [List.cons_append, List.cons.injEq] at h
      exact absurd (by simp [h.1]) hy'

theorem Same.string {body s t : Str} {bs : List UInt8} (hb : StrBody body bs)
    (h : Same (chr 0x22 :: (body ++ chr 0x22 :: s)) t) :
    ∃ t', t = chr 0x22 :: (body ++ chr 0x22 :: t') ∧ Same s t' := by
  obtain ⟨y, u, t', hx, rfl, h1, h2, hs⟩ := h.quoted
  obtain ⟨rfl, rfl⟩ := body_unique hb h1 h2 hx
  exact ⟨t', rfl, hs⟩

theorem Same.key {body s t : Str} (hb : chr 0x22 ∉ body) (h : Same (chr 0x22 :: (body ++ chr 0x22 :: s)) t) :
    ∃ t', t = chr 0x22 :: (body ++ chr 0x22 :: t') ∧ Same s t' := by
  obtain ⟨y, u, t', hx, rfl, h1, h2, hs⟩ := h.quoted
  obtain ⟨rfl, rfl⟩ := first_quote hb h1 hx
  exact ⟨t', rfl, hs⟩

theorem space_ascii {c : Chr} (h : Space c) : (∃ b : UInt8, b ≤ 0x7F ∧ c = chr b) ∧ ¬ NumChar c := by
  unfold Space at h
  simp only [List.mem_cons, List.not_mem_nil, or_false] at h
  have : ∀ b ∈ [(0x09 : UInt8), 0x0A, 0x0B, 0x0C, 0x0D, 0x20], b ≤ 0x7F ∧ ¬ NumChar (chr b) := by
    intro b hb
    refine ⟨by revert b; decide, ?_⟩
    rintro (⟨d, h1, h2, h3⟩ | h)
    · have : b = d := by simpa [chr] using h3
      subst this
      revert b; decide
    · revert b; decide
  rcases h with rfl | rfl | rfl | rfl | rfl | rfl <;>
    exact ⟨⟨_, (this _ (by simp)).1, rfl⟩, (this _ (by simp)).2⟩

theorem numChar_not_space {c : Chr} (h : NumChar c) : ¬ Space c := fun hs => (space_ascii hs).2 h

theorem numChar_not_quote {c : Chr} (h : NumChar c) : c ≠ chr 0x22 := by
  rintro rfl
  rcases h with ⟨d, h1, h2, h3⟩ | h
  · have : (0x22 : UInt8) = d := by simpa [chr] using h3
    subst this
    exact absurd h1 (by decide)
  · revert h; decide

theorem numStart_char {c : Chr} (h : NumStart c) : NumChar c := by
  rcases h with h | rfl | rfl
  · exact .inl h
  · exact .inr (by decide)
  · exact .inr (by decide)

theorem headIs_spaces {w : Str} (h : Spaces w) : HeadIs (fun d => ¬ NumChar d) w := by
  intro c hc
  exact space_ascii (h c (List.mem_of_mem_head? hc))

theorem Same.headIs {s t : Str} (h : Same s t) (hs : HeadIs (fun d => ¬ NumChar d) s) :
    HeadIs (fun d => ¬ NumChar d) t := by
  cases h with
  | spaces v v' h h' => exact headIs_spaces h'
  | token v v' d u t h h' e a b d' _ =>
    cases v' with
    | nil =>
      obtain rfl := e.mpr rfl
      exact fun c hc => hs c (by simpa using hc)
    | cons x v' => exact fun c hc => headIs_spaces h' c (by simpa using hc)
  | literal v v' body u t h h' e a b _ =>
    cases v' with
    | nil =>
      obtain rfl := e.mpr rfl
      exact fun c hc => hs c (by simpa using hc)
    | cons x v' => exact fun c hc => headIs_spaces h' c (by simpa using hc)

theorem members_quote {ops : FloatOps F} {lits : Bool} {text : Str} {ms : List (Str × Json F)} {rest : Str}
    (h : Members ops lits text ms rest) : ∃ u, text = chr 0x22 :: u := members_head h

theorem value_first {ops : FloatOps F} {lits : Bool} {text : Str} {j : Json F} {rest : Str}
    (h : Val ops lits text j rest) : ∃ c u, text = c :: u ∧ ¬ Space c := by
  obtain ⟨b, u, h, -, hs, -⟩ := val_head h
  exact ⟨_, u, h, hs⟩

theorem elements_first {ops : FloatOps F} {lits : Bool} {text : Str} {js : List (Json F)} {rest : Str}
    (h : Elements ops lits text js rest) : ∃ c u, text = c :: u ∧ ¬ Space c := by
  obtain ⟨b, u, h, -, hs, -⟩ := elements_head h
  exact ⟨_, u, h, hs⟩

mutual

/-- White space between tokens does not matter. -/
theorem same_val {ops : FloatOps F} {lits : Bool} : ∀ {text : Str} {j : Json F} {rest : Str},
    Val ops lits text j rest → ∀ {t : Str}, Same text t → ∃ rest', Val ops lits t j rest' ∧ Same rest rest'
  | _, _, _, .null rest hl, t, h => by
    obtain ⟨t', rfl, h'⟩ := Same.run h (by unfold Space; decide)
    exact ⟨t', .null _ hl, h'⟩
  | _, _, _, .true rest hl, t, h => by
    obtain ⟨t', rfl, h'⟩ := Same.run h (by unfold Space; decide)
    exact ⟨t', .true _ hl, h'⟩
  | _, _, _, .false rest hl, t, h => by
    obtain ⟨t', rfl, h'⟩ := Same.run h (by unfold Space; decide)
    exact ⟨t', .false _ hl, h'⟩
  | _, _, _, .number c n j rest hc hn hr hj, t, h => by
    obtain ⟨t', rfl, h'⟩ := Same.run (r := c :: n) h (by
      intro d hd
      have hd : NumChar d := by
        rcases List.mem_cons.mp hd with rfl | hd
        · exact numStart_char hc
        · exact hn d hd
      exact ⟨numChar_not_space hd, numChar_not_quote hd⟩)
    exact ⟨t', .number c n j t' hc hn (h'.headIs hr) hj, h'⟩
  | _, _, _, .string body bs s rest hb hs, t, h => by
    obtain ⟨t', rfl, h'⟩ := Same.string hb (by simpa using h)
    exact ⟨t', by simpa using Val.string (ops := ops) (lits := lits) body bs s t' hb hs, h'⟩
  | _, _, _, .emptyObject w rest hw, t, h => by
    obtain ⟨t₁, rfl, h₁⟩ := Same.cons (by simpa using h) (by unfold Space; decide) (by decide)
    obtain ⟨w', t₂, rfl, hw', -, h₂⟩ := Same.skip h₁ hw (by unfold Space; decide)
    obtain ⟨t₃, rfl, h₃⟩ := Same.cons h₂ (by unfold Space; decide) (by decide)
    exact ⟨t₃, by simpa using Val.emptyObject (ops := ops) (lits := lits) w' t₃ hw', h₃⟩
  | _, _, _, .object w text ms rest hw hm, t, h => by
    obtain ⟨t₁, rfl, h₁⟩ := Same.cons (by simpa using h) (by unfold Space; decide) (by decide)
    obtain ⟨u, hu⟩ := members_quote hm
    obtain ⟨w', t₂, rfl, hw', -, h₂⟩ := Same.skip (hu ▸ h₁) hw (by unfold Space; decide)
    obtain ⟨rest', hm', hr⟩ := same_members hm (hu ▸ h₂)
    exact ⟨rest', by simpa using Val.object (ops := ops) (lits := lits) w' t₂ ms rest' hw' hm', hr⟩
  | _, _, _, .emptyArray w rest hw, t, h => by
    obtain ⟨t₁, rfl, h₁⟩ := Same.cons (by simpa using h) (by unfold Space; decide) (by decide)
    obtain ⟨w', t₂, rfl, hw', -, h₂⟩ := Same.skip h₁ hw (by unfold Space; decide)
    obtain ⟨t₃, rfl, h₃⟩ := Same.cons h₂ (by unfold Space; decide) (by decide)
    exact ⟨t₃, by simpa using Val.emptyArray (ops := ops) (lits := lits) w' t₃ hw', h₃⟩
  | _, _, _, .array w text js rest hw he, t, h => by
    obtain ⟨t₁, rfl, h₁⟩ := Same.cons (by simpa using h) (by unfold Space; decide) (by decide)
    obtain ⟨c, u, hu, hc⟩ := elements_first he
    obtain ⟨w', t₂, rfl, hw', -, h₂⟩ := Same.skip (hu ▸ h₁) hw hc
    obtain ⟨rest', he', hr⟩ := same_elements he (hu ▸ h₂)
    exact ⟨rest', by simpa using Val.array (ops := ops) (lits := lits) w' t₂ js rest' hw' he', hr⟩

theorem same_members {ops : FloatOps F} {lits : Bool} : ∀ {text : Str} {ms : List (Str × Json F)} {rest : Str},
    Members ops lits text ms rest → ∀ {t : Str}, Same text t → ∃ rest', Members ops lits t ms rest' ∧ Same rest rest'
  | _, _, _, .last key w₁ w₂ w₃ text j rest hk h1 h2 h3 hv, t, h => by
    obtain ⟨t₁, rfl, a₁⟩ := Same.key hk (by simpa using h)
    obtain ⟨v₁, t₂, rfl, b₁, -, a₂⟩ := Same.skip a₁ h1 (by unfold Space; decide)
    obtain ⟨t₃, rfl, a₃⟩ := Same.cons a₂ (by unfold Space; decide) (by decide)
    obtain ⟨c, u, hu, hc⟩ := value_first hv
    obtain ⟨v₂, t₄, rfl, b₂, -, a₄⟩ := Same.skip (hu ▸ a₃) h2 hc
    obtain ⟨r, hv', a₅⟩ := same_val hv (hu ▸ a₄)
    obtain ⟨v₃, t₅, rfl, b₃, -, a₆⟩ := Same.skip a₅ h3 (by unfold Space; decide)
    obtain ⟨t₆, rfl, a₇⟩ := Same.cons a₆ (by unfold Space; decide) (by decide)
    exact ⟨t₆, by simpa using Members.last key v₁ v₂ v₃ t₄ j t₆ hk b₁ b₂ b₃ hv', a₇⟩
  | _, _, _, .more key w₁ w₂ w₃ w₄ text j text' ms rest hk h1 h2 h3 h4 hv hm, t, h => by
    obtain ⟨t₁, rfl, a₁⟩ := Same.key hk (by simpa using h)
    obtain ⟨v₁, t₂, rfl, b₁, -, a₂⟩ := Same.skip a₁ h1 (by unfold Space; decide)
    obtain ⟨t₃, rfl, a₃⟩ := Same.cons a₂ (by unfold Space; decide) (by decide)
    obtain ⟨c, u, hu, hc⟩ := value_first hv
    obtain ⟨v₂, t₄, rfl, b₂, -, a₄⟩ := Same.skip (hu ▸ a₃) h2 hc
    obtain ⟨r, hv', a₅⟩ := same_val hv (hu ▸ a₄)
    obtain ⟨v₃, t₅, rfl, b₃, -, a₆⟩ := Same.skip (by simpa using a₅) h3 (by unfold Space; decide)
    obtain ⟨t₆, rfl, a₇⟩ := Same.cons a₆ (by unfold Space; decide) (by decide)
    obtain ⟨u', hu'⟩ := members_quote hm
    obtain ⟨v₄, t₇, rfl, b₄, -, a₈⟩ := Same.skip (hu' ▸ a₇) h4 (by unfold Space; decide)
    obtain ⟨r', hm', a₉⟩ := same_members hm (hu' ▸ a₈)
    exact ⟨r', by simpa using Members.more key v₁ v₂ v₃ v₄ t₄ j t₇ ms r' hk b₁ b₂ b₃ b₄ (by simpa using hv') hm', a₉⟩

theorem same_elements {ops : FloatOps F} {lits : Bool} : ∀ {text : Str} {js : List (Json F)} {rest : Str},
    Elements ops lits text js rest → ∀ {t : Str}, Same text t → ∃ rest', Elements ops lits t js rest' ∧ Same rest rest'
  | _, _, _, .last w text j rest hw hv, t, h => by
    obtain ⟨r, hv', a₅⟩ := same_val hv h
    obtain ⟨v₃, t₅, rfl, b₃, -, a₆⟩ := Same.skip a₅ hw (by unfold Space; decide)
    obtain ⟨t₆, rfl, a₇⟩ := Same.cons a₆ (by unfold Space; decide) (by decide)
    exact ⟨t₆, Elements.last v₃ t j t₆ b₃ hv', a₇⟩
  | _, _, _, .more w₁ w₂ text j text' js rest h1 h2 hv he, t, h => by
    obtain ⟨r, hv', a₅⟩ := same_val hv h
    obtain ⟨v₃, t₅, rfl, b₃, -, a₆⟩ := Same.skip (by simpa using a₅) h1 (by unfold Space; decide)
    obtain ⟨t₆, rfl, a₇⟩ := Same.cons a₆ (by unfold Space; decide) (by decide)
    obtain ⟨c, u, hu, hc⟩ := elements_first he
    obtain ⟨v₄, t₇, rfl, b₄, -, a₈⟩ := Same.skip (hu ▸ a₇) h2 hc
    obtain ⟨r', he', a₉⟩ := same_elements he (hu ▸ a₈)
    exact ⟨r', Elements.more v₃ v₄ t j t₇ js r' b₃ b₄ (by simpa using hv') he', a₉⟩

end


/-- The last character that is no white space is `}`. -/
def Closed (s : Str) : Prop := ∃ pre w, Spaces w ∧ s = pre ++ chr 0x7D :: w

theorem closed_append {x s : Str} (h : Closed s) : Closed (x ++ s) := by
  obtain ⟨pre, w, hw, rfl⟩ := h
  exact ⟨x ++ pre, w, hw, by simp⟩

theorem closed_brace {w : Str} (h : Spaces w) : Closed (chr 0x7D :: w) := ⟨[], w, h, rfl⟩

/-- The last character is in `s`, or `s` is white space and the last character is before it. -/
theorem closed_split : ∀ {x s : Str}, Closed (x ++ s) → Closed s ∨ Spaces s
  | [], _, h => .inl h
  | c :: x, s, ⟨pre, w, hw, e⟩ => by
    cases pre with
    | nil =>
      simp only [List.cons_append, List.nil_append, List.cons.injEq] at e
      exact .inr fun d hd => hw d (e.2 ▸ List.mem_append_right _ hd)
    | cons d pre =>
      simp only [List.cons_append, List.cons.injEq] at e
      exact closed_split ⟨pre, w, hw, e.2⟩

theorem closed_last {x w : Str} {c : Chr} (hw : Spaces w) (hc : ¬ Space c) (h : Closed (x ++ c :: w)) :
    c = chr 0x7D := by
  obtain ⟨pre, w', hw', e⟩ := h
  have e := congrArg List.reverse e
  simp only [List.reverse_append, List.reverse_cons, List.append_assoc, List.singleton_append] at e
  exact (span_unique (fun d hd => hw d (by simpa using hd)) (fun d hd => hw' d (by simpa using hd)) hc
    (by unfold Space; decide) e).2.1

theorem Same.of_spaces {s t : Str} (h : Same s t) (hs : Spaces s) : Spaces t := by
  cases h with
  | spaces v v' h h' => exact h'
  | token v v' d u t h h' e a b d' _ => exact absurd (hs d (by simp)) a
  | literal v v' body u t h h' e a b _ => exact absurd (hs (chr 0x22) (by simp)) space_quote

theorem Same.closed {s t : Str} (h : Same s t) : Closed s → Closed t := by
  induction h with
  | spaces v v' h h' =>
    rintro ⟨pre, w, hw, rfl⟩
    exact absurd (h (chr 0x7D) (by simp)) (by unfold Space; decide)
  | token v v' d u t h h' e a b d' hs ih =>
    intro hc
    have hc' : Closed ((v ++ [d]) ++ u) := by simpa using hc
    rcases closed_split hc' with hu | hu
    · simpa using closed_append (x := v' ++ [d]) (ih hu)
    · obtain rfl := closed_last hu a hc
      exact closed_append (closed_brace (hs.of_spaces hu))
  | literal v v' body u t h h' e a b hs ih =>
    intro hc
    have hc' : Closed ((v ++ chr 0x22 :: (body ++ [chr 0x22])) ++ u) := by simpa using hc
    rcases closed_split hc' with hu | hu
    · simpa using closed_append (x := v' ++ chr 0x22 :: (body ++ [chr 0x22])) (ih hu)
    · have hc : Closed ((v ++ chr 0x22 :: body) ++ chr 0x22 :: u) := by simpa using hc
      exact absurd (closed_last hu space_quote hc) (by decide)

theorem white_iff (c : Chr) : c ∈ white ↔ Space c := Iff.rfl

theorem spaces_gap (p : Bool) : Spaces (gap p) := by cases p <;> unfold Spaces Space <;> decide

theorem scan_literal : ∀ {s t : Str}, scan .literal s = some t → chr 0x5C ∉ s →
    ∃ body s' t', s = body ++ chr 0x22 :: s' ∧ t = body ++ chr 0x22 :: t' ∧ chr 0x22 ∉ body ∧
      scan (.code false) s' = some t'
  | [], t, h, _ => by simp [scan] at h
  | c :: s, t, h, hb => by
    rw [scan] at h
    by_cases h1 : c ∈ newline
    · rw [if_pos h1] at h; cases h
    by_cases h2 : c = ⟨[0x5C]⟩
    · exact absurd (by rw [h2]; simp [chr]) hb
    rw [if_neg h1, if_neg h2] at h
    by_cases h3 : c = ⟨[0x22]⟩
    · rw [if_pos h3] at h
      obtain ⟨t', ht, rfl⟩ := Option.map_eq_some_iff.mp h
      exact ⟨[], s, t', by rw [h3]; rfl, by rw [h3]; rfl, by simp, ht⟩
    · rw [if_neg h3] at h
      obtain ⟨t', ht, rfl⟩ := Option.map_eq_some_iff.mp h
      obtain ⟨body, s', t'', rfl, rfl, hq, hs⟩ := scan_literal ht fun m => hb (by simp [m])
      refine ⟨c :: body, s', t'', rfl, rfl, ?_, hs⟩
      simp only [List.mem_cons, not_or]
      exact ⟨fun e => h3 e.symm, hq⟩

theorem count_none {body : Str} (h : chr 0x22 ∉ body) : body.count (chr 0x22) = 0 := List.count_eq_zero.mpr h

/-- No comment begins behind the part that is read. -/
theorem commented_append {x s : Str} (hx : x.count (chr 0x22) % 2 = 0) (h : Source.Commented s) :
    Source.Commented (x ++ s) := by
  obtain ⟨pre, post, h | h, he⟩ := h <;> subst h
  · exact ⟨x ++ pre, post, .inl (by simp), by rw [List.count_append]; omega⟩
  · exact ⟨x ++ pre, post, .inr (by simp), by rw [List.count_append]; omega⟩

theorem scan_same : ∀ (n : Nat) {s t : Str} {p : Bool}, s.length ≤ n → scan (.code p) s = some t → chr 0x5C ∉ s →
    ¬ Source.Commented s → ∀ {w : Str}, Spaces w → (w = [] ↔ p = false) → Same (w ++ s) t
  | _, [], t, p, _, h, _, _, w, hw, _ => by
    simp only [scan, Option.some.injEq] at h
    subst h
    simpa using Same.spaces w [] hw nilSpaces
  | 0, c :: s, _, _, hn, _, _, _, _, _, _ => by simp at hn
  | n + 1, c :: s, t, p, hn, h, hb, hc, w, hw, hp => by
    have hn : s.length ≤ n := by simpa using hn
    have hb' : chr 0x5C ∉ s := fun m => hb (by simp [m])
    have hg : w = [] ↔ gap p = [] := by rw [hp]; cases p <;> simp [gap]
    rw [scan] at h
    by_cases h1 : c ∈ white
    · rw [if_pos h1] at h
      have hc' : ¬ Source.Commented s := fun m => hc (commented_append (x := [c]) (by
        have : ∀ d ∈ white, List.count (chr 0x22) [d] % 2 = 0 := by decide
        exact this c h1) m)
      have := scan_same n hn h hb' hc' (w := w ++ [c]) (by
        intro d hd
        rcases List.mem_append.mp hd with hd | hd
        · exact hw d hd
        · rw [List.mem_singleton.mp hd]; exact h1) (by simp)
      simpa using this
    · have hsp : ¬ Space c := h1
      rw [if_neg h1] at h
      have h2 : ¬ (c = ⟨[0x2F]⟩ ∧ s.head? = some ⟨[0x2F]⟩) := by
        rintro ⟨rfl, e⟩
        obtain ⟨u, rfl⟩ := List.head?_eq_some_iff.mp e
        exact hc ⟨[], u, .inl rfl, rfl⟩
      have h3 : ¬ (c = ⟨[0x2F]⟩ ∧ s.head? = some ⟨[0x2A]⟩) := by
        rintro ⟨rfl, e⟩
        obtain ⟨u, rfl⟩ := List.head?_eq_some_iff.mp e
        exact hc ⟨[], u, .inr rfl, rfl⟩
      rw [if_neg h2, if_neg h3] at h
      by_cases h4 : c ∈ unmodelled ∨ c = ⟨[0x52]⟩ ∧ s.head? = some ⟨[0x22]⟩
      · rw [if_pos h4] at h; cases h
      rw [if_neg h4] at h
      by_cases h5 : c = ⟨[0x22]⟩
      · subst h5
        rw [if_pos rfl] at h
        obtain ⟨t', ht, rfl⟩ := Option.map_eq_some_iff.mp h
        obtain ⟨body, s', t'', rfl, rfl, hq, hs⟩ := scan_literal ht hb'
        have hb2 : chr 0x5C ∉ s' := fun m => hb' (by simp [m])
        have hc' : ¬ Source.Commented s' := fun m => hc (by
          have := commented_append (x := chr 0x22 :: (body ++ [chr 0x22])) (by
            simp [List.count_append, count_none hq]) m
          simpa [chr] using this)
        have := scan_same n (by simp at hn; omega) hs hb2 hc' (w := []) nilSpaces (by simp)
        exact .literal w (gap p) body s' t'' hw (spaces_gap p) hg hq (fun m => hb' (by simp [m])) this
      · rw [if_neg h5] at h
        obtain ⟨t', ht, rfl⟩ := Option.map_eq_some_iff.mp h
        have hc' : ¬ Source.Commented s := fun m => hc (commented_append (x := [c]) (by
          rw [count_none]; simpa [chr] using fun e => h5 e.symm) m)
        have := scan_same n hn ht hb' hc' (w := []) nilSpaces (by simp)
        exact .token w (gap p) c s t' hw (spaces_gap p) hg hsp h5 (fun e => hb (by simp [e])) this

/-- The space that is pending. -/
def Mode.pending : Mode → Nat
  | .code true => 1
  | _ => 0

theorem gap_length (p : Bool) : (gap p).length = (Mode.code p).pending := by cases p <;> rfl

theorem scan_length (m : Mode) (s : Str) : ∀ t, scan m s = some t → t.length ≤ s.length + m.pending := by
  induction m, s using scan.induct <;> intro t h <;> first | rw [scan] at h | rw [scan.eq_def] at h
  all_goals first
    | (rename_i he; exact absurd he.2 (by simp))
    | (simp only [*, if_true, if_false, reduceCtorEq] at h; done)
    | (simp only [Option.some.injEq] at h; subst h; simp; done)
    | (try simp only [*, and_self, if_true, if_false] at h
       rename_i ih
       first
         | (have := ih t h; simp only [Mode.pending, List.length_cons] at this ⊢; omega)
         | (obtain ⟨t', ht, rfl⟩ := Option.map_eq_some_iff.mp h
            have := ih t' ht
            simp only [Mode.pending, List.length_cons, List.length_append, gap_length] at this ⊢
            omega))

theorem spaces_takeWhile (s : Str) : Spaces (s.takeWhile (· ∈ white)) := by
  intro c hc
  have := List.all_takeWhile (p := fun c => decide (c ∈ white)) (l := s)
  rw [List.all_eq_true] at this
  have h : c ∈ white := by simpa using this c hc
  exact h

theorem spaces_prefix : ∀ {v s w u : Str} {c : Chr}, Spaces v → ¬ Space c → v ++ s = w ++ c :: u →
    ∃ w₂, w = v ++ w₂ ∧ s = w₂ ++ c :: u
  | [], s, w, u, c, _, _, h => ⟨w, rfl, h⟩
  | d :: v, s, [], u, c, hv, hc, h => by
    simp only [List.cons_append, List.nil_append, List.cons.injEq] at h
    exact absurd (h.1 ▸ hv d (by simp)) hc
  | d :: v, s, e :: w, u, c, hv, hc, h => by
    simp only [List.cons_append, List.cons.injEq] at h
    obtain ⟨w₂, rfl, rfl⟩ := spaces_prefix (fun x hx => hv x (by simp [hx])) hc h.2
    exact ⟨w₂, by rw [h.1]; rfl, rfl⟩

theorem document_spaces {ops : FloatOps F} {lits : Bool} {v s : Str} {j : Json F} (hv : Spaces v) :
    Document ops lits (v ++ s) j ↔ Document ops lits s j := by
  constructor
  · rintro ⟨w, body, rest, ms, hw, e, hval, hj, hcl⟩
    obtain ⟨c, u, rfl, hc⟩ := value_first hval
    obtain ⟨w₂, rfl, rfl⟩ := spaces_prefix hv hc e
    refine ⟨w₂, _, rest, ms, fun d hd => hw d (by simp [hd]), rfl, hval, hj, ?_⟩
    rcases closed_split (x := v) (s := w₂ ++ c :: u) hcl with h | h
    · exact h
    · exact absurd (h c (by simp)) hc
  · rintro ⟨w, body, rest, ms, hw, rfl, hval, hj, hcl⟩
    refine ⟨v ++ w, body, rest, ms, ?_, by simp, hval, hj, closed_append hcl⟩
    intro d hd
    rcases List.mem_append.mp hd with hd | hd
    · exact hv d hd
    · exact hw d hd

theorem Same.document {ops : FloatOps F} {lits : Bool} {s t : Str} {j : Json F} (h : Same s t)
    (hd : Document ops lits s j) : Document ops lits t j := by
  obtain ⟨w, body, rest, ms, hw, rfl, hval, hj, hcl⟩ := hd
  obtain ⟨c, u, rfl, hc⟩ := value_first hval
  obtain ⟨w', t', rfl, hw', -, h'⟩ := h.skip hw hc
  obtain ⟨rest', hval', -⟩ := same_val hval h'
  exact ⟨w', t', rest', ms, hw', rfl, hval', hj, h.closed hcl⟩

theorem spaces_quotes {v : Str} (hv : Spaces v) : v.count (chr 0x22) = 0 :=
  count_none fun h => space_quote (hv _ h)

theorem stringize_same {source t : Str} (h : stringize source = some t) (hb : chr 0x5C ∉ source)
    (hc : ¬ Source.Commented source) : Same (source.dropWhile (· ∈ white)) t := by
  have e := List.takeWhile_append_dropWhile (p := fun c => decide (c ∈ white)) (l := source)
  refine scan_same _ (Nat.le_refl _) h ?_ ?_ (w := []) nilSpaces (by simp)
  · intro m
    exact hb (e ▸ List.mem_append_right _ m)
  · intro m
    have := commented_append (x := source.takeWhile (· ∈ white)) (by rw [spaces_quotes (spaces_takeWhile _)]) m
    rw [e] at this
    exact hc this

theorem stringize_document {ops : FloatOps F} {lits : Bool} {source t : Str} {j : Json F}
    (h : stringize source = some t) (hb : chr 0x5C ∉ source) (hc : ¬ Source.Commented source) :
    Document ops lits t j ↔ Document ops lits source j := by
  have hs := stringize_same h hb hc
  have e := List.takeWhile_append_dropWhile (p := fun c => decide (c ∈ white)) (l := source)
  have := document_spaces (ops := ops) (lits := lits) (j := j) (s := source.dropWhile (· ∈ white)) (spaces_takeWhile source)
  rw [e] at this
  rw [this]
  exact ⟨hs.symm.document, hs.document⟩

theorem stringize_length {source t : Str} (h : stringize source = some t) : t.length ≤ source.length := by
  have h1 := scan_length _ _ t h
  have h2 : (source.dropWhile (· ∈ white)).length ≤ source.length := (List.dropWhile_sublist _).length_le
  simp only [Mode.pending] at h1
  omega

theorem ascii_append {s t : Str} : Ascii (s ++ t) ↔ Ascii s ∧ Ascii t := by
  simp only [Ascii, List.mem_append]
  exact ⟨fun h => ⟨fun c hc => h c (.inl hc), fun c hc => h c (.inr hc)⟩,
    fun h c hc => hc.elim (h.1 c) (h.2 c)⟩

theorem ascii_cons {c : Chr} {t : Str} : Ascii (c :: t) ↔ Ascii [c] ∧ Ascii t := ascii_append (s := [c])

theorem ascii_spaces {w : Str} (h : Spaces w) : Ascii w := by
  intro c hc
  have := h c hc
  unfold Space at this
  simp only [List.mem_cons, List.not_mem_nil, or_false] at this
  rcases this with rfl | rfl | rfl | rfl | rfl | rfl <;> exact ⟨_, by decide, by decide, rfl⟩

theorem Same.ascii {s t : Str} (h : Same s t) : Ascii s → Ascii t := by
  induction h with
  | spaces v v' h h' => exact fun _ => ascii_spaces h'
  | token v v' d u t h h' e a b d' hs ih =>
    intro hs
    rw [ascii_append, ascii_cons] at hs ⊢
    exact ⟨ascii_spaces h', hs.2.1, ih hs.2.2⟩
  | literal v v' body u t h h' e a b hs ih =>
    intro hs
    rw [ascii_append, ascii_cons, ascii_append, ascii_cons (t := u)] at hs
    rw [ascii_append, ascii_cons, ascii_append, ascii_cons (t := t)]
    exact ⟨ascii_spaces h', hs.2.1, hs.2.2.1, hs.2.2.2.1, ih hs.2.2.2.2⟩

theorem stringize_ascii {source t : Str} (h : stringize source = some t) (hb : chr 0x5C ∉ source)
    (hc : ¬ Source.Commented source) (ha : Ascii source) : Ascii t :=
  (stringize_same h hb hc).ascii fun c hm => ha c ((List.dropWhile_sublist _).subset hm)

theorem trigraph_cons {c : Chr} {s : Str} (h : Source.Trigraph s) : Source.Trigraph (c :: s) := by
  obtain ⟨pre, d, post, hd, rfl⟩ := h
  exact ⟨c :: pre, d, post, hd, rfl⟩

theorem lookup_trigraph {c d : Chr} (h : trigraphs.lookup c = some d) : c ∈ c!"=/'()!<>-" := by
  have : ∀ x ∈ trigraphs, x.1 ∈ c!"=/'()!<>-" := by decide
  obtain ⟨l₁, l₂, e, -⟩ := List.lookup_eq_some_iff.mp h
  exact this (c, d) (by rw [e]; simp)

theorem replace_none : ∀ {s : Str}, ¬ Source.Trigraph s → replace s = s
  | [], _ => rfl
  | [_], _ => rfl
  | [_, _], _ => rfl
  | a :: b :: c :: s, h => by
    have ih := replace_none (s := b :: c :: s) fun m => h (trigraph_cons m)
    rw [replace, ih]
    by_cases hq : a = ⟨[0x3F]⟩ ∧ b = ⟨[0x3F]⟩
    · rw [if_pos hq]
      cases hl : trigraphs.lookup c with
      | none => rfl
      | some d =>
        obtain ⟨rfl, rfl⟩ := hq
        exact absurd ⟨[], c, s, lookup_trigraph hl, rfl⟩ h
    · rw [if_neg hq]

end Caitlyn.JsonMacro
