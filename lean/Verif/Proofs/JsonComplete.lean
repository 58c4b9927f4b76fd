import Verif.Proofs.JsonNum
import Verif.Proofs.CNumber
import Verif.Proofs.Search

/-! # Helper lemmas: texts of the grammar are parsed -/

namespace Caitlyn
open Caitlyn.Spec JsonParser

theorem ok_bind {α β : Type} (a : α) (f : α → Res β) : ((Except.ok a : Res α) >>= f) = f a := rfl

/-- From position `p` on, the text is `u`. -/
def At (s : Str) (p : Nat) (u : Str) : Prop := s.drop p = u

namespace At
variable {s : Str} {p : Nat}

theorem index {c : Chr} {u : Str} (h : At s p (c :: u)) : Str.index s p = .ok c := by
  unfold At at h
  have : s[p]? = some c := by
    rw [← List.head?_drop, h]; rfl
  unfold Str.index vecGet
  rw [this]

theorem lt {c : Chr} {u : Str} (h : At s p (c :: u)) : p < s.length := by
  unfold At at h
  have := congrArg List.length h
  simp at this; omega

theorem len {u : Str} (h : At s p u) : s.length - p = u.length := by
  have := congrArg List.length h
  simpa using this

theorem le {c : Chr} {u v : Str} (h : At s p (u ++ c :: v)) : p + u.length < s.length := by
  have := h.len
  simp at this
  omega

theorem cons {c : Chr} {u : Str} (h : At s p (c :: u)) : At s (p + 1) u := by
  unfold At at *
  rw [← List.drop_drop, h]; rfl

theorem app {u v : Str} (h : At s p (u ++ v)) : At s (p + u.length) v := by
  unfold At at *
  rw [← List.drop_drop, h, List.drop_left]

end At

/-- The text does not start with white space. -/
abbrev NoSpace (u : Str) : Prop := HeadIs (fun c => ¬ Space c) u

theorem noSpace_cons (b : UInt8) (h : b ≤ 0x7F) (h' : ¬ Space (chr b)) (u : Str) : NoSpace (chr b :: u) := by
  intro c hc
  cases hc
  exact ⟨⟨b, h, rfl⟩, h'⟩

theorem space_chr {c : Chr} (h : Space c) : ∃ b : UInt8, b ≤ 0x7F ∧ c = chr b := by
  simp only [Space, List.mem_cons, List.not_mem_nil, or_false] at h
  rcases h with rfl | rfl | rfl | rfl | rfl | rfl <;> exact ⟨_, by decide, rfl⟩

theorem firstNonSpace_run : ∀ (w u : Str) (i : Nat), Spaces w → NoSpace u →
    StrUtil.firstNonSpace (w ++ u) i = .ok (i + w.length)
  | [], u, i, _, hu => by
    cases u with
    | nil => rfl
    | cons c u =>
      obtain ⟨⟨b, hb, rfl⟩, hn⟩ := hu c rfl
      simp only [List.nil_append, StrUtil.firstNonSpace, chr_codePoint b hb, ok_bind]
      rw [if_neg (by rw [space_iff b hb]; exact hn)]; rfl
  | c :: w, u, i, hw, hu => by
    have hc := hw c (by simp)
    obtain ⟨b, hb, rfl⟩ := space_chr hc
    simp only [List.cons_append, StrUtil.firstNonSpace, chr_codePoint b hb, ok_bind]
    rw [if_pos ((space_iff b hb).mpr hc), firstNonSpace_run w u (i + 1) (fun d hd => hw d (by simp [hd])) hu]
    simp; omega

theorem At.skip {s : Str} {p : Nat} {w u : Str} (h : At s p (w ++ u)) (hw : Spaces w) (hu : NoSpace u) :
    skipSpace s p = .ok (p + w.length) := by
  unfold skipSpace
  rw [show s.drop p = w ++ u from h]
  exact firstNonSpace_run w u p hw hu

theorem At.skip0 {s : Str} {p : Nat} {u : Str} (h : At s p u) (hu : NoSpace u) : skipSpace s p = .ok p :=
  At.skip (w := []) h (fun _ h => by cases h) hu

/-! ### Strings -/

theorem simpleEscape_of {c : Chr} {b : UInt8} (h : (c, b) ∈ escapes) : simpleEscape c = some [b] := by
  simp only [escapes, List.mem_cons, Prod.mk.injEq, List.not_mem_nil, or_false] at h
  rcases h with ⟨rfl, rfl⟩ | ⟨rfl, rfl⟩ | ⟨rfl, rfl⟩ | ⟨rfl, rfl⟩ | ⟨rfl, rfl⟩ | ⟨rfl, rfl⟩ | ⟨rfl, rfl⟩ <;> rfl

theorem of_simpleEscape {c : Chr} {bs : List UInt8} (h : simpleEscape c = some bs) :
    ∃ b, bs = [b] ∧ (c, b) ∈ escapes := by
  unfold simpleEscape at h
  repeat' split at h
  all_goals first
    | (cases h; done)
    | (cases h; subst_vars; exact ⟨_, rfl, by decide⟩)

theorem stringLoop_complete {F : Type} {s : Str} {body : Str} {bs : List UInt8} (hb : StrBody body bs) :
    ∀ (p n : Nat) (e : JsonError) (out : List UInt8) (rest : Str), At s p (body ++ chr 0x22 :: rest) →
      body.length < n →
      stringLoop (F := F) s n ⟨p, e⟩ out = stringEnd s ⟨p + body.length, e⟩ (out ++ bs) := by
  induction hb with
  | nil =>
    intro p n e out rest h hn
    obtain ⟨n, rfl⟩ := Nat.exists_eq_succ_of_ne_zero (show n ≠ 0 by omega)
    rw [stringLoop, if_pos h.lt, h.index]
    simp only [ok_bind]
    rw [if_pos (by decide)]; simp
  | plain c u bs h1 h2 hb ih =>
    intro p n e out rest h hn
    obtain ⟨n, rfl⟩ := Nat.exists_eq_succ_of_ne_zero (show n ≠ 0 by omega)
    rw [stringLoop, if_pos h.lt, h.index]
    simp only [ok_bind]
    rw [if_neg (show ¬ c = quote from h1), if_neg (show ¬ c = backslash from h2),
      ih (p + 1) n e _ rest h.cons (by simp at hn; omega)]
    simp [Nat.add_comm, Nat.add_left_comm]
  | escape c ig b u bs h1 hb ih =>
    intro p n e out rest h hn
    obtain ⟨n, rfl⟩ := Nat.exists_eq_succ_of_ne_zero (show n ≠ 0 by omega)
    rw [stringLoop, if_pos h.lt, h.index]
    simp only [ok_bind]
    rw [if_neg (by decide), if_pos (by decide), if_neg (by have := h.cons.lt; omega), h.cons.index]
    simp only [ok_bind, escape, simpleEscape_of h1]
    rw [ih (p + 1 + 1 + 1) n e _ rest h.cons.cons.cons (by simp at hn; omega)]
    simp [Nat.add_comm, Nat.add_left_comm]
  | unicode h1 h2 h3 h4 ig neg k u bs hk hk' hb ih =>
    intro p n e out rest h hn
    have hst := (StdNum.stoul_hex _ _).mpr ⟨neg, k, hk, hk', rfl⟩
    obtain ⟨n, rfl⟩ := Nat.exists_eq_succ_of_ne_zero (show n ≠ 0 by omega)
    rw [stringLoop, if_pos h.lt, h.index]
    simp only [ok_bind]
    rw [if_neg (by decide), if_pos (by decide), if_neg (by have := h.cons.lt; omega), h.cons.index]
    have hl := h.cons.cons.cons.cons.cons.lt
    have hsub : Str.substring s (p + 1 + 1) 4 = .ok [h1, h2, h3, h4] := by
      have h' := h.cons.cons
      unfold Str.substring
      rw [if_neg (by omega), show s.drop (p + 1 + 1) = _ from h', show min 4 (s.length - (p + 1 + 1)) = 4 by
        have := h.cons.cons.cons.cons.cons.lt; omega]
      rfl
    have hesc : escape s (p + 1) (chr 0x75) = .ok (.ok ([byteOf neg k], 5)) := by
      unfold escape
      rw [show simpleEscape (chr 0x75) = none from by decide]
      simp only
      rw [if_pos (by decide), if_neg (by omega), hsub]
      simp only [ok_bind, hst, StdNum.byteOf_nat _ _ hk']
      rfl
    simp only [ok_bind, hesc]
    rw [ih (p + 1 + 5 + 1) n e _ rest h.cons.cons.cons.cons.cons.cons.cons (by simp at hn; omega)]
    rw [show p + 1 + 5 + 1 + u.length = p + (u.length + 7) by omega]
    simp

theorem parseString_complete {F : Type} {s : Str} {body : Str} {bs : List UInt8} (hb : StrBody body bs) {v : Str}
    (hv : Str.ofStdString bs = .ok v) (p : Nat) (e : JsonError) (rest : Str)
    (h : At s p (chr 0x22 :: body ++ chr 0x22 :: rest)) :
    parseString (F := F) s ⟨p, e⟩ = .ok (.str v, ⟨p + body.length + 2, e⟩) := by
  unfold parseString
  have hlen := h.len
  simp at hlen
  rw [stringLoop_complete hb (p + 1) _ e [] rest h.cons (by omega)]
  unfold stringEnd
  rw [show (⟨p + 1 + body.length, e⟩ : PState).pos = p + 1 + body.length from rfl, (h.cons.app).index]
  simp only [ok_bind]
  rw [if_pos (by decide), List.nil_append, hv]
  simp only [ok_bind, pure, Except.pure]
  rw [show p + 1 + body.length + 1 = p + body.length + 2 by omega]

/-! ### Literals -/

theorem str_append (a b : Str) : Str.str (a ++ b) = Str.str a ++ Str.str b := by
  unfold Str.str; rw [List.flatMap_append]

theorem str_length_ascii {a : Str} (h : Ascii a) : (Str.str a).length = a.length := by
  rw [ascii_str h]; simp

/-- In an ASCII text positions of characters are positions of bytes. -/
theorem compareAt_ascii {s : Str} (hs : Ascii s) {p : Nat} (hp : p ≤ s.length) (text : List UInt8) :
    compareAt s p text = .ok ((Str.str (s.drop p)).take text.length == text) := by
  have h1 : Str.str s = Str.str (s.take p) ++ Str.str (s.drop p) := by
    rw [← str_append, List.take_append_drop]
  have h2 : (Str.str (s.take p)).length = p := by
    rw [str_length_ascii (fun c hc => hs c (List.mem_of_mem_take hc))]; simp; omega
  unfold compareAt
  rw [if_neg (by rw [str_length_ascii hs]; omega), h1]
  conv => lhs; rw [show p = (Str.str (s.take p)).length from h2.symm]
  rw [h2]
  congr 3
  conv => lhs; arg 1; rw [← h2]
  rw [List.drop_left]

/-! ### Members -/

theorem find_key {s : Str} {p : Nat} {key rest : Str} (hlen : s.length < npos) (hk : chr 0x22 ∉ key)
    (h : At s p (key ++ chr 0x22 :: rest)) : Str.find s [quote] p = .ok (p + key.length) := by
  have hle := h.le
  unfold Str.find
  rw [if_neg (by omega), show s.drop p = _ from h]
  have : Str.search (key ++ chr 0x22 :: rest) [quote] = key.length := by
    clear h hle
    induction key with
    | nil => rw [Str.search.eq_def]; rfl
    | cons c key ih =>
      have hc : quote ≠ c := by rintro rfl; exact hk (by simp [quote, chr])
      rw [Str.search.eq_def, if_neg (by simp [List.isPrefixOf, hc])]
      simp only [List.cons_append]
      rw [ih (fun hm => hk (by simp [hm]))]; rfl
  simp only [this]
  rw [if_pos (by omega)]

theorem substring_at {s : Str} {p : Nat} {u v : Str} (hp : p ≤ s.length) (h : At s p (u ++ v)) :
    Str.substring s p u.length = .ok u := by
  have hlen := h.len
  simp at hlen
  unfold Str.substring
  rw [if_neg (by omega), show s.drop p = _ from h, show min u.length (s.length - p) = u.length by omega,
    List.take_left]

theorem memberKey_complete {s : Str} {p : Nat} {key w₁ w₂ text : Str} (hlen : s.length < npos)
    (hk : chr 0x22 ∉ key) (h₁ : Spaces w₁) (h₂ : Spaces w₂) (ht : NoSpace text)
    (h : At s p (key ++ chr 0x22 :: (w₁ ++ chr 0x3A :: (w₂ ++ text)))) :
    memberKey s p = .ok (.ok (key, p + key.length + 1 + w₁.length + 1 + w₂.length)) ∧
      At s (p + key.length + 1 + w₁.length + 1 + w₂.length) text := by
  have hle := h.le
  have a1 := h.app.cons
  have a2 := a1.app
  have a3 := a2.cons.app
  refine ⟨?_, a3⟩
  unfold memberKey
  rw [find_key hlen hk h]
  simp only [ok_bind]
  rw [if_neg (by omega), show p + key.length - p = key.length by omega, substring_at (by omega) h]
  simp only [ok_bind]
  rw [a1.skip h₁ (noSpace_cons _ (by decide) (by unfold Space; decide) _)]
  simp only [ok_bind]
  rw [a2.index]
  simp only [ok_bind]
  rw [if_neg (by decide), a2.cons.skip h₂ ht]
  rfl

/-! ### After a value -/

theorem afterValue_closed {s : Str} {p : Nat} {w rest : Str} (b : UInt8) (hb : b = 0x7D ∨ b = 0x5D)
    (hw : Spaces w) (h : At s p (w ++ chr b :: rest)) :
    afterValue s (chr b) p = .ok (.closed (p + w.length + 1)) := by
  unfold afterValue
  rw [h.skip hw (by rcases hb with rfl | rfl <;> exact noSpace_cons _ (by decide) (by unfold Space; decide) _)]
  simp only [ok_bind]
  rw [h.app.index]
  simp only [ok_bind]
  rw [if_neg (by rcases hb with rfl | rfl <;> decide), if_pos trivial]
  rfl

theorem afterValue_more {s : Str} {p : Nat} {w w₂ rest : Str} (b c : UInt8) (hb : b = 0x7D ∨ b = 0x5D)
    (hw : Spaces w) (hw₂ : Spaces w₂) (hc : c ≤ 0x7F) (hs : ¬ Space (chr c)) (hcb : c ≠ b)
    (h : At s p (w ++ chr 0x2C :: (w₂ ++ chr c :: rest))) :
    afterValue s (chr b) p = .ok (.more (p + w.length + 1 + w₂.length)) := by
  unfold afterValue
  rw [h.skip hw (noSpace_cons _ (by decide) (by unfold Space; decide) _)]
  simp only [ok_bind]
  rw [h.app.index]
  simp only [ok_bind]
  rw [if_pos (by decide), h.app.cons.skip hw₂ (noSpace_cons _ hc hs _)]
  simp only [ok_bind]
  rw [h.app.cons.app.index]
  simp only [ok_bind]
  rw [if_neg (fun h => hcb (chr_inj h))]
  rfl

/-! ### Repeated keys -/

theorem setMember_fold_cons {F : Type} (k : Str) (v : Json F) (ms : List (Str × Json F)) :
    ∀ acc, ms.foldl (fun acc m => Json.setMember m.1 m.2 acc) ((k, v) :: acc) =
      (k, lastValue k v ms) :: (ms.filter fun m => m.1 ≠ k).foldl (fun acc m => Json.setMember m.1 m.2 acc) acc := by
  induction ms generalizing v with
  | nil => intro acc; rfl
  | cons m ms ih =>
    intro acc
    obtain ⟨k', v'⟩ := m
    simp only [List.foldl_cons, Json.setMember, lastValue]
    by_cases h : k = k'
    · subst h
      rw [if_pos rfl, ih, if_pos rfl, List.filter_cons_of_neg (by simp)]
    · rw [if_neg h, ih, if_neg (fun e => h e.symm), List.filter_cons_of_pos (by simpa using fun e => h e.symm)]
      rfl

theorem lastValue_filter {F : Type} (k k' : Str) (h : k' ≠ k) (ms : List (Str × Json F)) : ∀ v,
    lastValue k' v (ms.filter fun m => m.1 ≠ k) = lastValue k' v ms := by
  induction ms with
  | nil => intro v; rfl
  | cons m ms ih =>
    intro v
    obtain ⟨a, b⟩ := m
    by_cases e : a = k
    · rw [List.filter_cons_of_neg (by simp [e]), ih]
      simp only [lastValue]
      rw [if_neg (by rw [e]; exact fun e => h e.symm)]
    · rw [List.filter_cons_of_pos (by simp [e])]
      simp only [lastValue]
      split <;> exact ih _

theorem collapse_filter {F : Type} (k : Str) (ms : List (Str × Json F)) :
    collapse (ms.filter fun m => m.1 ≠ k) = (collapse ms).filter fun m => m.1 ≠ k := by
  induction ms with
  | nil => rfl
  | cons m ms ih =>
    obtain ⟨a, b⟩ := m
    by_cases e : a = k
    · rw [List.filter_cons_of_neg (by simp [e])]
      simp only [collapse]
      rw [List.filter_cons_of_neg (by simp [e]), ih, List.filter_filter]
      subst e; simp
    · rw [List.filter_cons_of_pos (by simp [e])]
      simp only [collapse]
      rw [List.filter_cons_of_pos (by simp [e]), ih, lastValue_filter k a e, List.filter_filter, List.filter_filter]
      congr 1
      apply List.filter_congr
      intro x _
      rw [Bool.and_comm]

theorem setMember_fold {F : Type} : ∀ (n : Nat) (ms : List (Str × Json F)), ms.length ≤ n →
    ms.foldl (fun acc m => Json.setMember m.1 m.2 acc) [] = collapse ms
  | _, [], _ => rfl
  | 0, _ :: _, h => by simp at h
  | n + 1, (k, v) :: ms, h => by
    simp only [List.foldl_cons, Json.setMember, collapse]
    rw [setMember_fold_cons, setMember_fold n _ (Nat.le_trans (List.length_filter_le _ _) (by simpa using h)),
      collapse_filter]

/-! ### Values -/

theorem val_head {F : Type} {ops : FloatOps F} {lits : Bool} {text rest : Str} {j : Json F}
    (h : Val ops lits text j rest) : ∃ b u, text = chr b :: u ∧ b ≤ 0x7F ∧ ¬ Space (chr b) ∧ b ≠ 0x7D ∧ b ≠ 0x5D := by
  cases h with
  | null => exact ⟨0x6E, _, rfl, by unfold Space; decide⟩
  | true => exact ⟨0x74, _, rfl, by unfold Space; decide⟩
  | false => exact ⟨0x66, _, rfl, by unfold Space; decide⟩
  | number c t j rest hc =>
    have key : ∀ b : UInt8, 0x30 ≤ b → b ≤ 0x39 → b ≤ 0x7F ∧ ¬ Space (chr b) ∧ b ≠ 0x7D ∧ b ≠ 0x5D := by
      intro b
      refine forall_u8 (P := fun b => 0x30 ≤ b → b ≤ 0x39 → b ≤ 0x7F ∧ ¬ Space (chr b) ∧ b ≠ 0x7D ∧ b ≠ 0x5D) ?_ b
      have : ∀ n < 256, ¬ (0x30 ≤ UInt8.ofNat n ∧ UInt8.ofNat n ≤ 0x39) ∨ (UInt8.ofNat n ≤ 0x7F ∧
          ¬ Space (chr (UInt8.ofNat n)) ∧ UInt8.ofNat n ≠ 0x7D ∧ UInt8.ofNat n ≠ 0x5D) := by
        unfold Space
        decide +kernel
      intro n hn h1 h2
      exact (this n hn).resolve_left (fun h => h ⟨h1, h2⟩)
    rcases hc with ⟨b, h1, h2, rfl⟩ | rfl | rfl
    · exact ⟨b, _, rfl, key b h1 h2⟩
    · exact ⟨0x2D, _, rfl, by unfold Space; decide⟩
    · exact ⟨0x2B, _, rfl, by unfold Space; decide⟩
  | string => exact ⟨0x22, _, rfl, by unfold Space; decide⟩
  | emptyObject => exact ⟨0x7B, _, rfl, by unfold Space; decide⟩
  | object => exact ⟨0x7B, _, rfl, by unfold Space; decide⟩
  | emptyArray => exact ⟨0x5B, _, rfl, by unfold Space; decide⟩
  | array => exact ⟨0x5B, _, rfl, by unfold Space; decide⟩

theorem elements_head {F : Type} {ops : FloatOps F} {lits : Bool} {text rest : Str} {js : List (Json F)}
    (h : Elements ops lits text js rest) :
    ∃ b u, text = chr b :: u ∧ b ≤ 0x7F ∧ ¬ Space (chr b) ∧ b ≠ 0x7D ∧ b ≠ 0x5D := by
  cases h with
  | last w _ j _ _ hv => exact val_head hv
  | more w w₂ _ j _ js _ _ _ hv => exact val_head hv

theorem members_head {F : Type} {ops : FloatOps F} {lits : Bool} {text rest : Str} {ms : List (Str × Json F)}
    (h : Members ops lits text ms rest) : ∃ u, text = chr 0x22 :: u := by
  cases h <;> exact ⟨_, rfl⟩

theorem head_noSpace {text : Str} {b : UInt8} {u : Str} (h : text = chr b :: u) (hb : b ≤ 0x7F)
    (hs : ¬ Space (chr b)) : NoSpace text := by
  subst h; exact noSpace_cons b hb hs u

section
variable {F : Type} (ops : FloatOps F) (lits : Bool) (s : Str) (hlen : s.length < npos) (hs : lits = true → Ascii s)

/-- The first steps of `ParseValue`. -/
theorem parseValue_start (n : Nat) (p : Nat) (e : JsonError) (b : UInt8) (u : Str) (h : At s p (chr b :: u))
    (hb : b ≤ 0x7F) (hsp : ¬ Space (chr b)) :
    parseValue ops s (n + 1) ⟨p, e⟩ =
      if chr b = quote then parseString s ⟨p, e⟩
      else if chr b = lbrace then do
        let pos ← skipSpace s (p + 1)
        objectLoop ops s n ⟨pos, e⟩ []
      else if chr b = lbracket then do
        let pos ← skipSpace s (p + 1)
        arrayLoop ops s n ⟨pos, e⟩ []
      else if chr b = lowerT ∨ chr b = lowerF then parseBoolean s ⟨p, e⟩
      else if chr b = lowerN then parseNull s ⟨p, e⟩
      else if CharUtil.isDigit b.toNat ∨ chr b = minus ∨ chr b = plus then parseNumber ops s ⟨p, e⟩
      else fail .unexpectedCharacter p := by
  rw [parseValue, h.skip0 (noSpace_cons b hb hsp u)]
  simp only [ok_bind]
  rw [if_neg (by have := h.lt; omega), h.index]
  simp only [ok_bind, chr_codePoint b hb]

/-- The start of an iteration of `ParseObject`. -/
theorem objectLoop_start (n : Nat) (p : Nat) (e : JsonError) (acc : List (Str × Json F)) (b : UInt8) (u : Str)
    (h : At s p (chr b :: u)) (hb : b ≤ 0x7F) (hsp : ¬ Space (chr b)) :
    objectLoop ops s (n + 1) ⟨p, e⟩ acc =
      if chr b = rbrace then .ok (.obj acc, ⟨p + 1, e⟩)
      else if chr b = quote then do
        match ← memberKey s (p + 1) with
        | .error (e, pos) => fail e pos
        | .ok (key, pos) =>
          let (v, st) ← parseValue ops s n ⟨pos, e⟩
          match ← afterValue s rbrace st.pos with
          | .closed pos => return (.obj (Json.setMember key v acc), { st with pos := pos })
          | .more pos => objectLoop ops s n { st with pos := pos } (Json.setMember key v acc)
          | .error e pos => fail e pos
      else fail .unexpectedCharacter p := by
  rw [objectLoop, if_pos h.lt, h.skip0 (noSpace_cons b hb hsp u)]
  simp only [ok_bind]
  rw [h.index]
  rfl

theorem arrayLoop_start (n : Nat) (p : Nat) (e : JsonError) (acc : List (Json F)) (b : UInt8) (u : Str)
    (h : At s p (chr b :: u)) (hb : b ≤ 0x7F) (hsp : ¬ Space (chr b)) :
    arrayLoop ops s (n + 1) ⟨p, e⟩ acc =
      (if chr b = rbracket then .ok (.arr acc, ⟨p + 1, e⟩)
      else do
        let (v, st) ← parseValue ops s n ⟨p, e⟩
        match ← afterValue s rbracket st.pos with
        | .closed pos => return (.arr (acc ++ [v]), { st with pos := pos })
        | .more pos => arrayLoop ops s n { st with pos := pos } (acc ++ [v])
        | .error e pos => fail e pos) := by
  rw [arrayLoop, if_pos h.lt, h.skip0 (noSpace_cons b hb hsp u)]
  simp only [ok_bind]
  rw [h.index]
  rfl

theorem take_str_lit (t rest : Str) (ht : Ascii t) :
    (Str.str (t ++ rest)).take t.length = Str.str t := by
  rw [str_append, ← str_length_ascii ht, List.take_left]

include hlen hs

mutual

theorem val_complete : ∀ {text : Str} {j : Json F} {rest : Str}, Val ops lits text j rest →
    ∀ (p n : Nat) (e : JsonError), At s p text → 2 * (s.length - p) + 1 ≤ n →
      ∃ p', parseValue ops s n ⟨p, e⟩ = .ok (j, ⟨p', e⟩) ∧ At s p' rest ∧ p < p'
  | _, _, rest, .null _ hl => fun p n e h hn => by
    obtain ⟨n, rfl⟩ := Nat.exists_eq_succ_of_ne_zero (show n ≠ 0 by omega)
    refine ⟨p + 4, ?_, h.app, by omega⟩
    rw [parseValue_start ops s n p e 0x6E _ h (by decide) (by unfold Space; decide)]
    rw [if_neg (by decide), if_neg (by decide), if_neg (by decide), if_neg (by decide), if_pos (by decide)]
    unfold parseNull
    rw [compareAt_ascii (hs hl) (Nat.le_of_lt h.lt), show s.drop p = _ from h, str_append]
    rfl
  | _, _, rest, .true _ hl => fun p n e h hn => by
    obtain ⟨n, rfl⟩ := Nat.exists_eq_succ_of_ne_zero (show n ≠ 0 by omega)
    refine ⟨p + 4, ?_, h.app, by omega⟩
    rw [parseValue_start ops s n p e 0x74 _ h (by decide) (by unfold Space; decide)]
    rw [if_neg (by decide), if_neg (by decide), if_neg (by decide), if_pos (by decide)]
    unfold parseBoolean
    rw [compareAt_ascii (hs hl) (Nat.le_of_lt h.lt), show s.drop p = _ from h, str_append]
    rfl
  | _, _, rest, .false _ hl => fun p n e h hn => by
    obtain ⟨n, rfl⟩ := Nat.exists_eq_succ_of_ne_zero (show n ≠ 0 by omega)
    refine ⟨p + 5, ?_, h.app, by omega⟩
    rw [parseValue_start ops s n p e 0x66 _ h (by decide) (by unfold Space; decide)]
    rw [if_neg (by decide), if_neg (by decide), if_neg (by decide), if_pos (by decide)]
    unfold parseBoolean
    rw [compareAt_ascii (hs hl) (Nat.le_of_lt h.lt), compareAt_ascii (hs hl) (Nat.le_of_lt h.lt),
      show s.drop p = _ from h, str_append]
    rfl
  | _, _, rest, .number c t j _ hc ht hr hj => fun p n e h hn => by
    obtain ⟨n, rfl⟩ := Nat.exists_eq_succ_of_ne_zero (show n ≠ 0 by omega)
    refine ⟨p + (c :: t).length, ?_, h.app, by simp⟩
    obtain ⟨b, u, hu, hb, hsp, h1, h2⟩ := val_head (Val.number (lits := lits) c t j rest hc ht hr hj)
    rw [hu] at h
    rw [parseValue_start ops s n p e b u h hb hsp]
    have hcb : c = chr b := by injection hu
    rw [← hu] at h
    rw [← hcb]
    have key : c ≠ quote ∧ c ≠ lbrace ∧ c ≠ lbracket ∧ ¬ (c = lowerT ∨ c = lowerF) ∧ c ≠ lowerN ∧
        (CharUtil.isDigit b.toNat = true ∨ c = minus ∨ c = plus) := by
      rcases hc with hc | rfl | rfl
      · have hd := (isDigit_iff_digit b hb).mpr (hcb ▸ hc)
        refine ⟨?_, ?_, ?_, ?_, ?_, .inl hd⟩
        · rintro rfl; exact absurd ((digit_chr 0x22).mp hc) (by decide)
        · rintro rfl; exact absurd ((digit_chr 0x7B).mp hc) (by decide)
        · rintro rfl; exact absurd ((digit_chr 0x5B).mp hc) (by decide)
        · rintro (rfl | rfl)
          · exact absurd ((digit_chr 0x74).mp hc) (by decide)
          · exact absurd ((digit_chr 0x66).mp hc) (by decide)
        · rintro rfl; exact absurd ((digit_chr 0x6E).mp hc) (by decide)
      · exact ⟨by decide, by decide, by decide, by decide, by decide, .inr (.inl rfl)⟩
      · exact ⟨by decide, by decide, by decide, by decide, by decide, .inr (.inr rfl)⟩
    obtain ⟨k1, k2, k3, k4, k5, k6⟩ := key
    rw [if_neg k1, if_neg k2, if_neg k3, if_neg k4, if_neg k5, if_pos k6]
    unfold parseNumber
    rw [show (⟨p, e⟩ : PState).pos = p from rfl, show s.drop p = _ from h,
      numLen_run (c :: t) rest (fun d hd => by
        rcases List.mem_cons.mp hd with rfl | hd
        · exact numStart_numChar hc
        · exact ht d hd) hr]
    simp only [ok_bind]
    rw [substring_at (Nat.le_of_lt h.lt) h]
    simp only [ok_bind, (convert_iff ops c t hc ht j).mpr hj]
    rfl
  | _, _, rest, .string body bs v _ hb hv => fun p n e h hn => by
    obtain ⟨n, rfl⟩ := Nat.exists_eq_succ_of_ne_zero (show n ≠ 0 by omega)
    refine ⟨p + body.length + 2, ?_, ?_, by omega⟩
    · rw [parseValue_start ops s n p e 0x22 _ h (by decide) (by unfold Space; decide)]
      rw [if_pos (by decide)]
      exact parseString_complete hb hv p e rest h
    · have := h.app.cons
      simpa [Nat.add_assoc] using this
  | _, _, rest, .emptyObject w _ hw => fun p n e h hn => by
    have hlt := h.cons.app.lt
    obtain ⟨n, rfl⟩ := Nat.exists_eq_succ_of_ne_zero (show n ≠ 0 by omega)
    obtain ⟨n, rfl⟩ := Nat.exists_eq_succ_of_ne_zero (show n ≠ 0 by omega)
    refine ⟨p + 1 + w.length + 1, ?_, h.cons.app.cons, by omega⟩
    rw [parseValue_start ops s _ p e 0x7B _ h (by decide) (by unfold Space; decide)]
    rw [if_neg (by decide), if_pos (by decide),
      h.cons.skip hw (noSpace_cons _ (by decide) (by unfold Space; decide) _)]
    simp only [ok_bind]
    rw [objectLoop_start ops s n _ e [] 0x7D _ h.cons.app (by decide) (by unfold Space; decide), if_pos (by decide)]
  | _, _, rest, .object w text ms _ hw hm => fun p n e h hn => by
    obtain ⟨u, hu⟩ := members_head hm
    have hlt := h.lt
    obtain ⟨n, rfl⟩ := Nat.exists_eq_succ_of_ne_zero (show n ≠ 0 by omega)
    obtain ⟨p', h1, h2, h3⟩ := members_complete hm (p + 1 + w.length) n e [] h.cons.app (by omega)
    refine ⟨p', ?_, h2, by omega⟩
    rw [parseValue_start ops s _ p e 0x7B _ h (by decide) (by unfold Space; decide)]
    rw [if_neg (by decide), if_pos (by decide),
      h.cons.skip hw (head_noSpace hu (by decide) (by unfold Space; decide))]
    simp only [ok_bind]
    rw [h1, setMember_fold _ ms (Nat.le_refl _)]
  | _, _, rest, .emptyArray w _ hw => fun p n e h hn => by
    have hlt := h.cons.app.lt
    obtain ⟨n, rfl⟩ := Nat.exists_eq_succ_of_ne_zero (show n ≠ 0 by omega)
    obtain ⟨n, rfl⟩ := Nat.exists_eq_succ_of_ne_zero (show n ≠ 0 by omega)
    refine ⟨p + 1 + w.length + 1, ?_, h.cons.app.cons, by omega⟩
    rw [parseValue_start ops s _ p e 0x5B _ h (by decide) (by unfold Space; decide)]
    rw [if_neg (by decide), if_neg (by decide), if_pos (by decide),
      h.cons.skip hw (noSpace_cons _ (by decide) (by unfold Space; decide) _)]
    simp only [ok_bind]
    rw [arrayLoop_start ops s n _ e [] 0x5D _ h.cons.app (by decide) (by unfold Space; decide), if_pos (by decide)]
  | _, _, rest, .array w text js _ hw hm => fun p n e h hn => by
    obtain ⟨b, u, hu, hb, hsp, _⟩ := elements_head hm
    have hlt := h.lt
    obtain ⟨n, rfl⟩ := Nat.exists_eq_succ_of_ne_zero (show n ≠ 0 by omega)
    obtain ⟨p', h1, h2, h3⟩ := elements_complete hm (p + 1 + w.length) n e [] h.cons.app (by omega)
    refine ⟨p', ?_, h2, by omega⟩
    rw [parseValue_start ops s _ p e 0x5B _ h (by decide) (by unfold Space; decide)]
    rw [if_neg (by decide), if_neg (by decide), if_pos (by decide), h.cons.skip hw (head_noSpace hu hb hsp)]
    simp only [ok_bind]
    rw [h1]; rfl

theorem members_complete : ∀ {text : Str} {ms : List (Str × Json F)} {rest : Str}, Members ops lits text ms rest →
    ∀ (p n : Nat) (e : JsonError) (acc : List (Str × Json F)), At s p text → 2 * (s.length - p) + 2 ≤ n →
      ∃ p', objectLoop ops s n ⟨p, e⟩ acc =
          .ok (.obj (ms.foldl (fun acc m => Json.setMember m.1 m.2 acc) acc), ⟨p', e⟩) ∧ At s p' rest ∧ p < p'
  | _, _, rest, .last key w₁ w₂ w₃ text j _ hk h₁ h₂ h₃ hv => fun p n e acc h hn => by
    have hlt := h.lt
    obtain ⟨n, rfl⟩ := Nat.exists_eq_succ_of_ne_zero (show n ≠ 0 by omega)
    obtain ⟨b, u, hu, hb, hsp, _⟩ := val_head hv
    have h' : At s p (chr 0x22 :: (key ++ chr 0x22 :: (w₁ ++ chr 0x3A :: (w₂ ++ text)))) := by
      simpa using h
    obtain ⟨k1, k2⟩ := memberKey_complete hlen hk h₁ h₂ (head_noSpace hu hb hsp) h'.cons
    obtain ⟨p', hp, ha, hl⟩ := val_complete hv _ n e k2 (by omega)
    refine ⟨p' + w₃.length + 1, ?_, ha.app.cons, by omega⟩
    rw [objectLoop_start ops s n p e acc 0x22 _ h' (by decide) (by unfold Space; decide),
      if_neg (by decide), if_pos (by decide), k1]
    simp only [ok_bind, hp]
    rw [show rbrace = chr 0x7D from rfl, afterValue_closed 0x7D (.inl rfl) h₃ ha]
    rfl
  | _, _, rest, .more key w₁ w₂ w₃ w₄ text j text' ms _ hk h₁ h₂ h₃ h₄ hv hm => fun p n e acc h hn => by
    have hlt := h.lt
    obtain ⟨n, rfl⟩ := Nat.exists_eq_succ_of_ne_zero (show n ≠ 0 by omega)
    obtain ⟨b, u, hu, hb, hsp, _⟩ := val_head hv
    obtain ⟨u', hu'⟩ := members_head hm
    have h' : At s p (chr 0x22 :: (key ++ chr 0x22 :: (w₁ ++ chr 0x3A :: (w₂ ++ text)))) := by
      simpa using h
    obtain ⟨k1, k2⟩ := memberKey_complete hlen hk h₁ h₂ (head_noSpace hu hb hsp) h'.cons
    obtain ⟨p', hp, ha, hl⟩ := val_complete hv _ n e k2 (by omega)
    have ha' : At s p' (w₃ ++ chr 0x2C :: (w₄ ++ text')) := by simpa using ha
    obtain ⟨p'', hp'', ha'', hl''⟩ := members_complete hm (p' + w₃.length + 1 + w₄.length) n e
      (Json.setMember key j acc) ha'.app.cons.app (by omega)
    refine ⟨p'', ?_, ha'', by omega⟩
    rw [objectLoop_start ops s n p e acc 0x22 _ h' (by decide) (by unfold Space; decide),
      if_neg (by decide), if_pos (by decide), k1]
    simp only [ok_bind, hp]
    rw [hu'] at ha'
    rw [show rbrace = chr 0x7D from rfl,
      afterValue_more 0x7D 0x22 (.inl rfl) h₃ h₄ (by decide) (by unfold Space; decide) (by decide) ha']
    simp only [ok_bind]
    rw [hp'']; rfl

theorem elements_complete : ∀ {text : Str} {js : List (Json F)} {rest : Str}, Elements ops lits text js rest →
    ∀ (p n : Nat) (e : JsonError) (acc : List (Json F)), At s p text → 2 * (s.length - p) + 2 ≤ n →
      ∃ p', arrayLoop ops s n ⟨p, e⟩ acc = .ok (.arr (acc ++ js), ⟨p', e⟩) ∧ At s p' rest ∧ p < p'
  | _, _, rest, .last w text j _ hw hv => fun p n e acc h hn => by
    obtain ⟨n, rfl⟩ := Nat.exists_eq_succ_of_ne_zero (show n ≠ 0 by omega)
    obtain ⟨b, u, hu, hb, hsp, _, hne⟩ := val_head hv
    obtain ⟨p', hp, ha, hl⟩ := val_complete hv p n e h (by omega)
    refine ⟨p' + w.length + 1, ?_, ha.app.cons, by omega⟩
    rw [hu] at h
    rw [arrayLoop_start ops s n p e acc b u h hb hsp, if_neg (show ¬ chr b = rbracket from fun h => hne (chr_inj h))]
    simp only [ok_bind, hp]
    rw [show rbracket = chr 0x5D from rfl, afterValue_closed 0x5D (.inr rfl) hw ha]
    rfl
  | _, _, rest, .more w₁ w₂ text j text' js _ h₁ h₂ hv hm => fun p n e acc h hn => by
    obtain ⟨n, rfl⟩ := Nat.exists_eq_succ_of_ne_zero (show n ≠ 0 by omega)
    obtain ⟨b, u, hu, hb, hsp, _, hne⟩ := val_head hv
    obtain ⟨b', u', hu', hb', hsp', _, hne'⟩ := elements_head hm
    obtain ⟨p', hp, ha, hl⟩ := val_complete hv p n e h (by omega)
    have ha' : At s p' (w₁ ++ chr 0x2C :: (w₂ ++ text')) := by simpa using ha
    have hlt := h.len
    rw [hu] at hlt
    simp at hlt
    obtain ⟨p'', hp'', ha'', hl''⟩ := elements_complete hm (p' + w₁.length + 1 + w₂.length) n e
      (acc ++ [j]) ha'.app.cons.app (by omega)
    refine ⟨p'', ?_, ha'', by omega⟩
    rw [hu] at h
    rw [arrayLoop_start ops s n p e acc b u h hb hsp, if_neg (show ¬ chr b = rbracket from fun h => hne (chr_inj h))]
    simp only [ok_bind, hp]
    rw [hu'] at ha'
    rw [show rbracket = chr 0x5D from rfl, afterValue_more 0x5D b' (.inr rfl) h₁ h₂ hb' hsp' hne' ha']
    simp only [ok_bind]
    rw [hp'']; simp

end
end

/-! ### The whole text -/

theorem lastNonSpace_run (s : Str) (pre w : Str) (b : UInt8) (hb : b ≤ 0x7F) (hs : ¬ Space (chr b))
    (hpre : pre ≠ []) (he : s = pre ++ chr b :: w) :
    ∀ (w₁ w₂ : Str), w = w₁ ++ w₂ → Spaces w₁ →
      StrUtil.lastNonSpace s (pre.length + w₁.length) = .ok pre.length := by
  intro w₁
  induction hk : w₁.length generalizing w₁ with
  | zero =>
    intro w₂ hw hw₁
    have : w₁ = [] := by simpa using hk
    subst this
    obtain ⟨k, hk'⟩ := Nat.exists_eq_succ_of_ne_zero (show pre.length ≠ 0 by simpa using hpre)
    have ha : At s pre.length (chr b :: w) := by
      unfold At; rw [he, List.drop_left]
    simp only [Nat.add_zero]
    rw [hk'] at ha ⊢
    simp only [StrUtil.lastNonSpace, ha.index, ok_bind, chr_codePoint b hb]
    rw [if_neg (by rw [space_iff b hb]; exact hs)]
    rfl
  | succ k ih =>
    intro w₂ hw hw₁
    obtain ⟨w₃, c, rfl⟩ : ∃ w₃ c, w₁ = w₃ ++ [c] := by
      have : w₁ ≠ [] := by intro h; subst h; simp at hk
      exact ⟨w₁.dropLast, w₁.getLast this, (List.dropLast_concat_getLast this).symm⟩
    have hk3 : w₃.length = k := by simpa using hk
    have hc := hw₁ c (by simp)
    obtain ⟨d, hd, rfl⟩ := space_chr hc
    have ha : At s (pre.length + k + 1) (chr d :: w₂) := by
      unfold At
      rw [he, hw, show pre ++ chr b :: (w₃ ++ [chr d] ++ w₂) = (pre ++ chr b :: w₃) ++ chr d :: w₂ by simp,
        show pre.length + k + 1 = (pre ++ chr b :: w₃).length by simp [hk3]; omega, List.drop_left]
    rw [show pre.length + (k + 1) = (pre.length + k) + 1 by omega]
    simp only [StrUtil.lastNonSpace, ha.index, ok_bind, chr_codePoint d hd]
    rw [if_pos ((space_iff d hd).mpr hc)]
    exact ih w₃ hk3 (chr d :: w₂) (by rw [hw]; simp) (fun x hx => hw₁ x (by simp [hx]))

theorem parse_complete {F : Type} (ops : FloatOps F) (lits : Bool) (s : Str) (hlen : s.length < npos)
    (hs : lits = true → Ascii s) {j : Json F} (h : Document ops lits s j) :
    ∃ p, parse ops s = .ok (j, ⟨p, .noError⟩) := by
  obtain ⟨w, body, rest, ms, hw, he, hv, hj, pre, w', hw', he'⟩ := h
  obtain ⟨u, hu⟩ : ∃ u, body = chr 0x7B :: u := by
    subst hj
    generalize hg : Json.obj ms = g at hv
    cases hv with
    | null => cases hg
    | true => cases hg
    | false => cases hg
    | number c t _ _ _ _ _ hn =>
      subst hg
      generalize hg : Json.obj ms = g at hn
      generalize c :: t = ct at hn
      cases hn <;> cases hg
    | string => cases hg
    | emptyObject => exact ⟨_, rfl⟩
    | object => exact ⟨_, rfl⟩
    | emptyArray => cases hg
    | array => cases hg
  have h0 : At s 0 (w ++ body) := he
  have hNS : NoSpace body := head_noSpace hu (by decide) (by unfold Space; decide)
  have hbody : At s w.length body := by have := h0.app; rwa [Nat.zero_add] at this
  obtain ⟨p', h1, _, _⟩ := val_complete ops lits s hlen hs hv w.length (2 * s.length + 2) .noError hbody (by omega)
  refine ⟨p', ?_⟩
  have hne : s ≠ [] := by rw [he, hu]; simp
  have hlt : w.length < s.length := by rw [hu] at hbody; exact hbody.lt
  have hpre : pre ≠ [] := by
    rintro rfl
    rw [List.nil_append] at he'
    rw [he', hu] at he
    cases w with
    | nil => rw [List.nil_append] at he; injection he with he _; exact absurd (chr_inj he) (by decide)
    | cons c w =>
      rw [List.cons_append] at he
      injection he with he _
      have := hw c (by simp)
      rw [← he] at this
      exact absurd this (by unfold Space; decide)
  unfold parse
  rw [if_neg hne]
  unfold StrUtil.findFirstNonSpace StrUtil.findLastNonSpace
  have hfirst : StrUtil.firstNonSpace s 0 = .ok w.length := by
    have := firstNonSpace_run w body 0 hw hNS
    rw [← he, Nat.zero_add] at this; exact this
  have hlast : StrUtil.lastNonSpace s (s.length - 1) = .ok pre.length := by
    have := lastNonSpace_run s pre w' 0x7D (by decide) (by unfold Space; decide) hpre he' w' [] (by simp) hw'
    rw [show s.length - 1 = pre.length + w'.length by rw [he']; simp]
    exact this
  rw [if_neg (by simpa using hne), hfirst, hlast]
  simp only [ok_bind]
  have hb' := hbody
  rw [hu] at hb'
  rw [hb'.index]
  simp only [ok_bind]
  have hp : At s pre.length (chr 0x7D :: w') := by unfold At; rw [he', List.drop_left]
  rw [if_neg (by decide), hp.index]
  simp only [ok_bind]
  rw [if_neg (by decide), ← h1]
  -- `ParseValue` skips the white space first
  show parseValue ops s (2 * s.length + 2) ⟨0, .noError⟩ = _
  rw [parseValue, parseValue, h0.skip hw hNS, hbody.skip0 hNS, Nat.zero_add]

end Caitlyn
