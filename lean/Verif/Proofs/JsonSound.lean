import Verif.Proofs.JsonComplete

/-! # Helper lemmas: what is parsed without error is a text of the grammar -/

namespace Caitlyn
open Caitlyn.Spec JsonParser

theorem bind_ok {α β : Type} {x : Res α} {f : α → Res β} {b : β} (h : (x >>= f) = .ok b) :
    ∃ a, x = .ok a ∧ f a = .ok b := by
  cases x with
  | error e => cases h
  | ok a => exact ⟨a, rfl, h⟩

theorem fail_ok {F : Type} {e : JsonError} {p : Nat} {j : Json F} {p' : Nat} {e' : JsonError}
    (h : fail e p = .ok (j, ⟨p', e'⟩)) : e' = e := by
  cases h; rfl

theorem ascii_drop {s : Str} (hs : Ascii s) (p : Nat) : Ascii (s.drop p) :=
  fun c hc => hs c (List.mem_of_mem_drop hc)

theorem index_inv {s : Str} {p : Nat} {c : Chr} (h : Str.index s p = .ok c) : At s p (c :: s.drop (p + 1)) := by
  unfold Str.index vecGet at h
  cases hg : s[p]? with
  | none => rw [hg] at h; cases h
  | some a =>
    rw [hg] at h; cases h
    obtain ⟨hlt, rfl⟩ := List.getElem?_eq_some_iff.mp hg
    exact (List.drop_eq_getElem_cons hlt)

theorem firstNonSpace_inv : ∀ (u : Str) (i k : Nat), Ascii u → StrUtil.firstNonSpace u i = .ok k →
    ∃ w v, u = w ++ v ∧ Spaces w ∧ NoSpace v ∧ k = i + w.length
  | [], i, k, _, h => by cases h; exact ⟨[], [], rfl, by simp [Spaces], (fun c hc => by cases hc), rfl⟩
  | c :: u, i, k, ha, h => by
    obtain ⟨b, hb1, hb, rfl⟩ := ha c (by simp)
    simp only [StrUtil.firstNonSpace, chr_codePoint b hb, ok_bind] at h
    by_cases hsp : Space (chr b)
    · rw [if_pos ((space_iff b hb).mpr hsp)] at h
      obtain ⟨w, v, rfl, h1, h2, rfl⟩ := firstNonSpace_inv u (i + 1) k (fun d hd => ha d (by simp [hd])) h
      refine ⟨chr b :: w, v, rfl, ?_, h2, by simp; omega⟩
      intro d hd
      rcases List.mem_cons.mp hd with rfl | hd
      · exact hsp
      · exact h1 d hd
    · rw [if_neg (by rw [space_iff b hb]; exact hsp)] at h
      cases h
      exact ⟨[], chr b :: u, rfl, by simp [Spaces], noSpace_cons b hb hsp u, rfl⟩

theorem skip_inv {s : Str} (hs : Ascii s) {p q : Nat} (h : skipSpace s p = .ok q) :
    ∃ w u, At s p (w ++ u) ∧ Spaces w ∧ NoSpace u ∧ q = p + w.length ∧ At s q u := by
  obtain ⟨w, u, h1, h2, h3, rfl⟩ := firstNonSpace_inv _ _ _ (ascii_drop hs p) h
  exact ⟨w, u, h1, h2, h3, rfl, At.app h1⟩

theorem at_unique {s : Str} {p : Nat} {u v : Str} (h : At s p u) (h' : At s p v) : u = v := by
  unfold At at *; rw [← h, ← h']

theorem noSpace_head {c : Chr} {u : Str} (h : NoSpace (c :: u)) : ¬ Space c := (h c rfl).2

theorem spaces_unique : ∀ {w w' u u' : Str} {c c' : Chr}, Spaces w → Spaces w' → ¬ Space c → ¬ Space c' →
    w ++ c :: u = w' ++ c' :: u' → w = w' ∧ c = c' ∧ u = u'
  | [], [], u, u', c, c', _, _, _, _, h => by
    simp at h; exact ⟨rfl, h.1, h.2⟩
  | [], d :: w', u, u', c, c', _, hw', hc, _, h => by
    simp at h
    exact absurd (hw' d (by simp)) (h.1 ▸ hc)
  | d :: w, [], u, u', c, c', hw, _, _, hc', h => by
    simp at h
    exact absurd (hw d (by simp)) (h.1 ▸ hc')
  | d :: w, d' :: w', u, u', c, c', hw, hw', hc, hc', h => by
    simp at h
    obtain ⟨h1, h2⟩ := h
    obtain ⟨a, b, c⟩ := spaces_unique (fun x hx => hw x (by simp [hx])) (fun x hx => hw' x (by simp [hx])) hc hc' h2
    exact ⟨by rw [h1, a], b, c⟩

theorem spaces_append {w w' : Str} (h : Spaces w) (h' : Spaces w') : Spaces (w ++ w') := by
  intro c hc
  rcases List.mem_append.mp hc with hc | hc
  · exact h c hc
  · exact h' c hc

theorem spaces_nil_of {w u : Str} (h : Spaces w) (h' : NoSpace (w ++ u)) : w = [] := by
  cases w with
  | nil => rfl
  | cons c w => exact absurd (h c (by simp)) (h' c rfl).2

/-! ### Literals -/

theorem take_str_inv : ∀ (t u : Str), Ascii t → Ascii u → (Str.str u).take t.length = Str.str t →
    ∃ rest, u = t ++ rest
  | [], u, _, _, _ => ⟨u, rfl⟩
  | c :: t, [], ht, _, h => by
    obtain ⟨b, h1, h2, rfl⟩ := ht c (by simp)
    have : Str.str (chr b :: t) = b :: Str.str t := by
      show (chr b).printed ++ Str.str t = _
      rw [chr_printed b h1 h2]; rfl
    rw [this] at h
    cases h
  | c :: t, d :: u, ht, hu, h => by
    obtain ⟨b, h1, h2, rfl⟩ := ht c (by simp)
    obtain ⟨a, h3, h4, rfl⟩ := hu d (by simp)
    have e1 : Str.str (chr b :: t) = b :: Str.str t := by
      show (chr b).printed ++ Str.str t = _
      rw [chr_printed b h1 h2]; rfl
    have e2 : Str.str (chr a :: u) = a :: Str.str u := by
      show (chr a).printed ++ Str.str u = _
      rw [chr_printed a h3 h4]; rfl
    rw [e1, e2, List.length_cons, List.take_succ_cons] at h
    injection h with h5 h6
    obtain ⟨rest, rfl⟩ := take_str_inv t u (fun d hd => ht d (by simp [hd])) (fun d hd => hu d (by simp [hd])) h6
    exact ⟨rest, by rw [h5]; rfl⟩

theorem ascii_cons {b : UInt8} {t : Str} (h1 : 0x01 ≤ b) (h2 : b ≤ 0x7F) (ht : Ascii t) : Ascii (chr b :: t) := by
  intro c hc
  rcases List.mem_cons.mp hc with rfl | hc
  · exact ⟨b, h1, h2, rfl⟩
  · exact ht c hc

theorem ascii_null : Ascii c!"null" :=
  ascii_cons (b := 0x6E) (by decide) (by decide) (ascii_cons (b := 0x75) (by decide) (by decide)
    (ascii_cons (b := 0x6C) (by decide) (by decide) (ascii_cons (b := 0x6C) (by decide) (by decide)
      (fun _ h => by cases h))))

theorem ascii_true : Ascii c!"true" :=
  ascii_cons (b := 0x74) (by decide) (by decide) (ascii_cons (b := 0x72) (by decide) (by decide)
    (ascii_cons (b := 0x75) (by decide) (by decide) (ascii_cons (b := 0x65) (by decide) (by decide)
      (fun _ h => by cases h))))

theorem ascii_false : Ascii c!"false" :=
  ascii_cons (b := 0x66) (by decide) (by decide) (ascii_cons (b := 0x61) (by decide) (by decide)
    (ascii_cons (b := 0x6C) (by decide) (by decide) (ascii_cons (b := 0x73) (by decide) (by decide)
      (ascii_cons (b := 0x65) (by decide) (by decide) (fun _ h => by cases h)))))

section
variable {F : Type} {s : Str} (hs : Ascii s)
include hs

theorem compareAt_inv {p : Nat} {text : Str} {bytes : List UInt8} (hp : p ≤ s.length)
    (ht : Ascii text) (he : Str.str text = bytes) {r : Bool} (h : compareAt s p bytes = .ok r) :
    r = true → ∃ rest, At s p (text ++ rest) ∧ At s (p + text.length) rest := by
  rintro rfl
  rw [compareAt_ascii hs hp] at h
  injection h with h
  rw [beq_iff_eq, ← he, str_length_ascii ht] at h
  obtain ⟨rest, hr⟩ := take_str_inv text _ ht (ascii_drop hs p) h
  exact ⟨rest, hr, At.app hr⟩

theorem parseNull_inv {p p' : Nat} {e : JsonError} {j : Json F} (hp : p ≤ s.length)
    (h : parseNull s ⟨p, e⟩ = .ok (j, ⟨p', .noError⟩)) :
    e = .noError ∧ j = .null ∧ ∃ rest, At s p (c!"null" ++ rest) ∧ At s p' rest := by
  unfold parseNull at h
  obtain ⟨r, hr, h⟩ := bind_ok h
  cases r with
  | false => exact absurd (fail_ok h) (by decide)
  | true =>
    cases h
    obtain ⟨rest, h1, h2⟩ := compareAt_inv hs hp ascii_null (by rfl) hr rfl
    exact ⟨rfl, rfl, rest, h1, h2⟩

theorem parseBoolean_inv {p p' : Nat} {e : JsonError} {j : Json F} (hp : p ≤ s.length)
    (h : parseBoolean s ⟨p, e⟩ = .ok (j, ⟨p', .noError⟩)) :
    e = .noError ∧ ((j = .bool true ∧ ∃ rest, At s p (c!"true" ++ rest) ∧ At s p' rest) ∨
      (j = .bool false ∧ ∃ rest, At s p (c!"false" ++ rest) ∧ At s p' rest)) := by
  unfold parseBoolean at h
  obtain ⟨r, hr, h⟩ := bind_ok h
  cases r with
  | true =>
    cases h
    obtain ⟨rest, h1, h2⟩ := compareAt_inv hs hp ascii_true (by rfl) hr rfl
    exact ⟨rfl, .inl ⟨rfl, rest, h1, h2⟩⟩
  | false =>
    obtain ⟨r, hr, h⟩ := bind_ok h
    cases r with
    | true =>
      cases h
      obtain ⟨rest, h1, h2⟩ := compareAt_inv hs hp ascii_false (by rfl) hr rfl
      exact ⟨rfl, .inr ⟨rfl, rest, h1, h2⟩⟩
    | false => exact absurd (fail_ok h) (by decide)

omit hs

/-! ### Strings -/

theorem escape_err {p : Nat} {c : Chr} {e : JsonError} (h : escape s p c = .ok (.error e)) :
    e = .invalidEscapeSequence := by
  unfold escape at h
  split at h
  · cases h
  · split at h
    · split at h
      · cases h; rfl
      · obtain ⟨hex, _, h⟩ := bind_ok h
        split at h <;> cases h
        rfl
    · cases h; rfl

theorem stringEnd_inv {p p' : Nat} {e : JsonError} {out : List UInt8} {j : Json F}
    (h : stringEnd s ⟨p, e⟩ out = .ok (j, ⟨p', .noError⟩)) :
    e = .noError ∧ ∃ v rest, j = .str v ∧ Str.ofStdString out = .ok v ∧ At s p (chr 0x22 :: rest) ∧
      At s p' rest := by
  unfold stringEnd at h
  obtain ⟨c, hc, h⟩ := bind_ok h
  split at h
  · rename_i hq
    obtain ⟨v, hv, h⟩ := bind_ok h
    cases h
    have ha := index_inv hc
    rw [show c = chr 0x22 from hq] at ha
    exact ⟨rfl, v, _, rfl, hv, ha, ha.cons⟩
  · exact absurd (fail_ok h) (by decide)

theorem stringLoop_inv : ∀ (n p p' : Nat) (e : JsonError) (out : List UInt8) (j : Json F),
    stringLoop s n ⟨p, e⟩ out = .ok (j, ⟨p', .noError⟩) →
    e = .noError ∧ ∃ body bs v rest, StrBody body bs ∧ At s p (body ++ chr 0x22 :: rest) ∧
      Str.ofStdString (out ++ bs) = .ok v ∧ j = .str v ∧ At s p' rest
  | 0, _, _, _, _, _, h => by cases h
  | n + 1, p, p', e, out, j, h => by
    rw [stringLoop] at h
    have hend : stringEnd s ⟨p, e⟩ out = .ok (j, ⟨p', .noError⟩) → e = .noError ∧
        ∃ body bs v rest, StrBody body bs ∧ At s p (body ++ chr 0x22 :: rest) ∧
          Str.ofStdString (out ++ bs) = .ok v ∧ j = .str v ∧ At s p' rest := by
      intro h
      obtain ⟨h1, v, rest, h2, h3, h4, h5⟩ := stringEnd_inv h
      exact ⟨h1, [], [], v, rest, .nil, h4, by simpa using h3, h2, h5⟩
    split at h
    · obtain ⟨c, hc, h⟩ := bind_ok h
      have ha := index_inv hc
      split at h
      · exact hend h
      · rename_i hq
        split at h
        · rename_i hbs
          rw [show c = chr 0x5C from hbs] at ha
          split at h
          · exact absurd (fail_ok h) (by decide)
          · obtain ⟨d, hd, h⟩ := bind_ok h
            obtain ⟨r, hr, h⟩ := bind_ok h
            have hb := index_inv hd
            cases r with
            | error e' =>
              have := escape_err hr
              subst this
              exact absurd (fail_ok h) (by decide)
            | ok r =>
              obtain ⟨bytes, k⟩ := r
              obtain ⟨h1, body, bs, v, rest, h2, h3, h4, h5, h6⟩ := stringLoop_inv n _ p' e _ j h
              refine ⟨h1, ?_⟩
              change At s (p + 1 + k + 1) _ at h3
              unfold escape at hr
              split at hr
              · rename_i bytes' hse
                cases hr
                obtain ⟨b, rfl, hb'⟩ := of_simpleEscape hse
                -- the ignored character
                have hlt : p + 1 + 1 < s.length := by have := h3.le; omega
                have hig := index_inv (s := s) (p := p + 1 + 1) (c := s[p + 1 + 1]) (by
                  unfold Str.index vecGet; rw [List.getElem?_eq_getElem hlt])
                refine ⟨chr 0x5C :: d :: s[p + 1 + 1] :: body, b :: bs, v, rest, .escape d _ b _ _ hb' h2, ?_, ?_, h5, h6⟩
                · unfold At at *
                  rw [ha, hb, hig, h3]; simp
                · simpa using h4
              · split at hr
                · rename_i hu
                  rw [show d = chr 0x75 from hu] at hb
                  split at hr
                  · cases hr
                  · rename_i hge
                    obtain ⟨hex, hhex, hr⟩ := bind_ok hr
                    split at hr
                    · rename_i code hcode
                      cases hr
                      have hlt : p + 1 + 5 < s.length := by have := h3.le; omega
                      have hat : ∀ q, (hq : q < s.length) → At s q (s[q] :: s.drop (q + 1)) :=
                        fun q hq => List.drop_eq_getElem_cons hq
                      have hsub : hex = [s[p + 1 + 1], s[p + 1 + 2], s[p + 1 + 3], s[p + 1 + 4]] := by
                        unfold Str.substring at hhex
                        rw [if_neg (by omega), show min 4 (s.length - (p + 1 + 1)) = 4 by omega] at hhex
                        injection hhex with hhex
                        rw [← hhex, hat (p + 1 + 1) (by omega), hat (p + 1 + 1 + 1) (by omega),
                          hat (p + 1 + 1 + 1 + 1) (by omega), hat (p + 1 + 1 + 1 + 1 + 1) (by omega)]
                        rfl
                      subst hsub
                      obtain ⟨neg, k, hk, hk', hkc⟩ := (StdNum.stoul_hex _ _).mp hcode
                      have hbyte : UInt8.ofNat code = byteOf neg k := by rw [hkc]; exact StdNum.byteOf_nat _ _ hk'
                      rw [hbyte] at h4
                      refine ⟨chr 0x5C :: chr 0x75 :: s[p + 1 + 1] :: s[p + 1 + 2] :: s[p + 1 + 3] :: s[p + 1 + 4] ::
                        s[p + 1 + 5] :: body, byteOf neg k :: bs, v, rest, .unicode _ _ _ _ _ neg k _ _ hk hk' h2,
                        ?_, by simpa using h4, h5, h6⟩
                      unfold At at *
                      rw [ha, hb, hat (p + 1 + 1) (by omega), hat (p + 1 + 1 + 1) (by omega),
                          hat (p + 1 + 1 + 1 + 1) (by omega), hat (p + 1 + 1 + 1 + 1 + 1) (by omega),
                          hat (p + 1 + 1 + 1 + 1 + 1 + 1) (by omega),
                          show p + 1 + 1 + 1 + 1 + 1 + 1 + 1 = p + 1 + 5 + 1 by omega, h3]
                      simp
                    · cases hr
                · cases hr
        · rename_i hbs
          obtain ⟨h1, body, bs, v, rest, h2, h3, h4, h5, h6⟩ := stringLoop_inv n _ p' e _ j h
          refine ⟨h1, c :: body, c.printed ++ bs, v, rest, .plain c _ _ hq hbs h2, ?_, by simpa using h4, h5, h6⟩
          unfold At at *
          rw [ha, h3]; simp
    · exact hend h

theorem parseString_inv {p p' : Nat} {e : JsonError} {j : Json F} {u : Str} (hq : At s p (chr 0x22 :: u))
    (h : parseString s ⟨p, e⟩ = .ok (j, ⟨p', .noError⟩)) :
    e = .noError ∧ ∃ body bs v rest, StrBody body bs ∧ At s p (chr 0x22 :: body ++ chr 0x22 :: rest) ∧
      Str.ofStdString bs = .ok v ∧ j = .str v ∧ At s p' rest := by
  obtain ⟨h1, body, bs, v, rest, h2, h3, h4, h5, h6⟩ := stringLoop_inv _ _ p' e _ j h
  refine ⟨h1, body, bs, v, rest, h2, ?_, by simpa using h4, h5, h6⟩
  have := at_unique hq.cons h3
  unfold At
  rw [hq, this]; rfl

/-! ### Numbers -/

theorem convert_err (ops : FloatOps F) {t : Str} {e : JsonError} (h : convert ops t = .error e) : e ≠ .noError := by
  unfold convert at h
  repeat' split at h
  all_goals first
    | (cases h; done)
    | (cases h; decide)

include hs

theorem parseNumber_inv (ops : FloatOps F) {p p' : Nat} {e : JsonError} {j : Json F} {c : Chr} {u : Str}
    (hq : At s p (c :: u)) (hc : NumStart c) (h : parseNumber ops s ⟨p, e⟩ = .ok (j, ⟨p', .noError⟩)) :
    e = .noError ∧ ∃ t rest, At s p (c :: t ++ rest) ∧ (∀ d ∈ t, NumChar d) ∧ HeadIs (fun d => ¬ NumChar d) rest ∧
      Number ops (c :: t) j ∧ At s p' rest := by
  unfold parseNumber at h
  obtain ⟨len, hlen, h⟩ := bind_ok h
  obtain ⟨number, hnum, h⟩ := bind_ok h
  change numLen (s.drop p) = .ok len at hlen
  obtain ⟨t, rest, ht, rfl, h1, h2⟩ := numLen_inv _ _ (ascii_drop hs p) hlen
  have hnum' : Str.substring s p t.length = .ok number := hnum
  rw [substring_at (Nat.le_of_lt hq.lt) ht] at hnum'
  injection hnum' with hnum'
  subst hnum'
  cases t with
  | nil =>
    have := at_unique hq ht
    rw [List.nil_append] at this
    exact absurd (numStart_numChar hc) (h2 c (by rw [← this]; rfl)).2
  | cons c' t =>
    have := at_unique hq ht
    rw [List.cons_append] at this
    injection this with e1 e2
    subst e1
    have ht' : ∀ d ∈ t, NumChar d := fun d hd => h1 d (by simp [hd])
    cases hcv : convert ops (c :: t) with
    | error e' =>
      rw [hcv] at h
      exact absurd (fail_ok h).symm (convert_err ops hcv)
    | ok j' =>
      rw [hcv] at h
      cases h
      exact ⟨rfl, t, rest, ht, ht', h2, (convert_iff ops c t hc ht' _).mp hcv, At.app ht⟩

/-! ### Members and what follows a value -/

theorem afterValue_inv {p : Nat} {b : UInt8} {r : After} (h : afterValue s (chr b) p = .ok r) :
    (∃ q w rest, r = .closed q ∧ Spaces w ∧ At s p (w ++ chr b :: rest) ∧ At s q rest) ∨
    (∃ q w w₂ c u, r = .more q ∧ Spaces w ∧ Spaces w₂ ∧ At s p (w ++ chr 0x2C :: (w₂ ++ c :: u)) ∧
      At s q (c :: u) ∧ NoSpace (c :: u) ∧ c ≠ chr b) ∨
    (∃ e q, r = .error e q ∧ e ≠ .noError) := by
  unfold afterValue at h
  obtain ⟨q, hq, h⟩ := bind_ok h
  obtain ⟨c, hc, h⟩ := bind_ok h
  obtain ⟨w, u, h1, h2, h3, rfl, h4⟩ := skip_inv hs hq
  have ha := index_inv hc
  have := at_unique h4 ha
  rw [this] at h1 h3
  split at h
  · rename_i hcomma
    obtain ⟨q₂, hq₂, h⟩ := bind_ok h
    obtain ⟨c₂, hc₂, h⟩ := bind_ok h
    obtain ⟨w₂, u₂, k1, k2, k3, rfl, k4⟩ := skip_inv hs hq₂
    have ha₂ := index_inv hc₂
    have hu₂ := at_unique k4 ha₂
    rw [hu₂] at k1 k3
    split at h
    · cases h; exact .inr (.inr ⟨_, _, rfl, by decide⟩)
    · rename_i hne
      cases h
      refine .inr (.inl ⟨_, w, w₂, c₂, _, rfl, h2, k2, ?_, ha₂, k3, hne⟩)
      rw [hcomma] at h1
      rw [show s.drop (p + w.length + 1) = _ from k1] at h1
      exact h1
  · split at h
    · rename_i hclose
      cases h
      rw [hclose] at h1 ha
      exact .inl ⟨_, w, _, rfl, h2, h1, ha.cons⟩
    · cases h; exact .inr (.inr ⟨_, _, rfl, by decide⟩)

omit hs in
theorem find_inv (hlen : s.length < npos) {p q : Nat} (h : Str.find s [quote] p = .ok q) :
    (q = npos) ∨ (q ≠ npos ∧ ∃ key rest, chr 0x22 ∉ key ∧ At s p (key ++ chr 0x22 :: rest) ∧ q = p + key.length) := by
  unfold Str.find at h
  split at h
  · cases h
  · injection h with h
    by_cases hm : chr 0x22 ∈ s.drop p
    · -- split at the first occurrence
      obtain ⟨key, rest, he, hk⟩ := List.eq_append_cons_of_mem hm
      have ha : At s p (key ++ chr 0x22 :: rest) := he
      have := find_key hlen hk ha
      unfold Str.find at this
      have hle := ha.le
      rw [if_neg (by omega)] at this
      injection this with this
      rw [← h]
      right
      rw [this]
      exact ⟨by omega, key, rest, hk, ha, rfl⟩
    · have hs' : Str.search (s.drop p) [quote] = (s.drop p).length := by
        apply Str.search_none
        rintro ⟨i, pre, post, hd, _⟩
        exact hm (by rw [hd]; simp [quote, chr])
      left
      rename_i hp
      rw [← h, hs', if_neg]
      simp; omega

theorem memberKey_inv (hlen : s.length < npos) {p : Nat} {r : Except (JsonError × Nat) (Str × Nat)}
    (h : memberKey s p = .ok r) :
    (∃ e q, r = .error (e, q) ∧ e ≠ .noError) ∨
    (∃ key q w₁ w₂ u, r = .ok (key, q) ∧ chr 0x22 ∉ key ∧ Spaces w₁ ∧ Spaces w₂ ∧
      At s p (key ++ chr 0x22 :: (w₁ ++ chr 0x3A :: (w₂ ++ u))) ∧ At s q u ∧ NoSpace u ∧ p < q) := by
  unfold memberKey at h
  obtain ⟨k, hk, h⟩ := bind_ok h
  split at h
  · cases h; exact .inl ⟨_, _, rfl, by decide⟩
  · rename_i hne
    obtain ⟨key', hkey', h⟩ := bind_ok h
    obtain ⟨q, hq, h⟩ := bind_ok h
    obtain ⟨c, hc, h⟩ := bind_ok h
    split at h
    · cases h; exact .inl ⟨_, _, rfl, by decide⟩
    · rename_i hcolon
      obtain ⟨q₂, hq₂, h⟩ := bind_ok h
      cases h
      rcases find_inv hlen hk with h0 | ⟨_, key, rest, hkk, ha, rfl⟩
      · exact absurd h0 hne
      · rw [show p + key.length - p = key.length by omega, substring_at (by have := ha.le; omega) ha] at hkey'
        injection hkey' with hkey'
        subst hkey'
        obtain ⟨w₁, u₁, a1, a2, a3, rfl, a4⟩ := skip_inv hs hq
        obtain ⟨w₂, u₂, b1, b2, b3, rfl, b4⟩ := skip_inv hs hq₂
        have hci := index_inv hc
        have hcc : c = chr 0x3A := by
          by_cases e : c = chr 0x3A
          · exact e
          · exact absurd e hcolon
        subst hcc
        refine .inr ⟨key, _, w₁, w₂, u₂, rfl, hkk, a2, b2, ?_, b4, b3, by omega⟩
        have e1 := at_unique ha.app.cons a1
        have e2 := at_unique a4 hci
        have e3 : s.drop (p + key.length + 1 + w₁.length + 1) = w₂ ++ u₂ := b1
        rw [e3] at e2
        rw [e1, e2] at ha
        exact ha

/-! ### Values -/

/-- The statement about `ParseValue`. -/
def ValSound (ops : FloatOps F) (s : Str) (n : Nat) : Prop :=
  ∀ (p p' : Nat) (e : JsonError) (j : Json F), parseValue ops s n ⟨p, e⟩ = .ok (j, ⟨p', .noError⟩) →
    e = .noError ∧ ((Spaces (s.drop p) ∧ s.length ≤ p') ∨
      ∃ w u, Spaces w ∧ At s p (w ++ u) ∧ Val ops true u j (s.drop p'))

def ObjSound (ops : FloatOps F) (s : Str) (n : Nat) : Prop :=
  ∀ (p p' : Nat) (e : JsonError) (acc : List (Str × Json F)) (j : Json F),
    objectLoop ops s n ⟨p, e⟩ acc = .ok (j, ⟨p', .noError⟩) →
    e = .noError ∧ ∃ w u, Spaces w ∧ At s p (w ++ u) ∧
      ((u = chr 0x7D :: s.drop p' ∧ j = .obj acc) ∨
        ∃ ms, Members ops true u ms (s.drop p') ∧ j = .obj (ms.foldl (fun acc m => Json.setMember m.1 m.2 acc) acc))

def ArrSound (ops : FloatOps F) (s : Str) (n : Nat) : Prop :=
  ∀ (p p' : Nat) (e : JsonError) (acc : List (Json F)) (j : Json F),
    arrayLoop ops s n ⟨p, e⟩ acc = .ok (j, ⟨p', .noError⟩) →
    e = .noError ∧ ∃ w u, Spaces w ∧ At s p (w ++ u) ∧
      ((u = chr 0x5D :: s.drop p' ∧ j = .arr acc) ∨
        ∃ js, Elements ops true u js (s.drop p') ∧ j = .arr (acc ++ js))

theorem valSound_succ (ops : FloatOps F) {n : Nat} (ho : ObjSound ops s n) (ha : ArrSound ops s n) :
    ValSound ops s (n + 1) := by
  intro p p' e j h
  rw [parseValue] at h
  obtain ⟨q, hq, h⟩ := bind_ok h
  change skipSpace s p = .ok q at hq
  obtain ⟨w, u, h1, h2, h3, rfl, h4⟩ := skip_inv hs hq
  split at h
  · rename_i hge
    cases h
    refine ⟨rfl, .inl ⟨?_, hge⟩⟩
    have : u = [] := by
      have := h4.len
      rw [show s.length - (p + w.length) = 0 by omega] at this
      simpa using this.symm
    rw [this, List.append_nil] at h1
    rw [show s.drop p = w from h1]; exact h2
  · rename_i hlt
    obtain ⟨c, hc, h⟩ := bind_ok h
    have hci := index_inv hc
    have hu := at_unique h4 hci
    have hle : p + w.length ≤ s.length := by omega
    split at h
    · rename_i hq
      rw [show c = chr 0x22 from hq] at hci
      obtain ⟨k1, body, bs, v, rest, k2, k3, k4, rfl, k6⟩ := parseString_inv hci h
      refine ⟨k1, .inr ⟨w, u, h2, h1, ?_⟩⟩
      rw [at_unique h4 k3, show s.drop p' = rest from k6]
      exact .string body bs v rest k2 k4
    · split at h
      · rename_i hq
        rw [show c = chr 0x7B from hq] at hci hu
        obtain ⟨q₂, hq₂, h⟩ := bind_ok h
        obtain ⟨w₂, u₂, a1, a2, a3, rfl, a4⟩ := skip_inv hs hq₂
        obtain ⟨k1, w₃, u₃, k2, k3, k4⟩ := ho _ _ _ _ _ h
        refine ⟨k1, .inr ⟨w, u, h2, h1, ?_⟩⟩
        have e1 := at_unique a4 k3
        have e2 : u = chr 0x7B :: (w₂ ++ w₃) ++ u₃ := by
          rw [hu, show s.drop (p + w.length + 1) = _ from a1, e1]; simp
        rw [e2]
        rcases k4 with ⟨rfl, rfl⟩ | ⟨ms, k5, rfl⟩
        · exact .emptyObject _ _ (spaces_append a2 k2)
        · rw [setMember_fold _ ms (Nat.le_refl _)]
          exact .object _ _ ms _ (spaces_append a2 k2) k5
      · split at h
        · rename_i hq
          rw [show c = chr 0x5B from hq] at hci hu
          obtain ⟨q₂, hq₂, h⟩ := bind_ok h
          obtain ⟨w₂, u₂, a1, a2, a3, rfl, a4⟩ := skip_inv hs hq₂
          obtain ⟨k1, w₃, u₃, k2, k3, k4⟩ := ha _ _ _ _ _ h
          refine ⟨k1, .inr ⟨w, u, h2, h1, ?_⟩⟩
          have e1 := at_unique a4 k3
          have e2 : u = chr 0x5B :: (w₂ ++ w₃) ++ u₃ := by
            rw [hu, show s.drop (p + w.length + 1) = _ from a1, e1]; simp
          rw [e2]
          rcases k4 with ⟨rfl, rfl⟩ | ⟨js, k5, rfl⟩
          · exact .emptyArray _ _ (spaces_append a2 k2)
          · exact .array _ _ js _ (spaces_append a2 k2) k5
        · split at h
          · obtain ⟨k1, k2⟩ := parseBoolean_inv hs hle h
            refine ⟨k1, .inr ⟨w, u, h2, h1, ?_⟩⟩
            rcases k2 with ⟨rfl, rest, k3, k4⟩ | ⟨rfl, rest, k3, k4⟩
            · rw [at_unique h4 k3, show s.drop p' = rest from k4]
              exact .true rest rfl
            · rw [at_unique h4 k3, show s.drop p' = rest from k4]
              exact .false rest rfl
          · split at h
            · obtain ⟨k1, rfl, rest, k3, k4⟩ := parseNull_inv hs hle h
              refine ⟨k1, .inr ⟨w, u, h2, h1, ?_⟩⟩
              rw [at_unique h4 k3, show s.drop p' = rest from k4]
              exact .null rest rfl
            · obtain ⟨cp, hcp, h⟩ := bind_ok h
              split at h
              · rename_i hnum
                have hmem : c ∈ s := by
                  have : c ∈ s.drop (p + w.length) := by rw [show s.drop (p + w.length) = _ from hci]; simp
                  exact List.mem_of_mem_drop this
                have hc' : NumStart c := by
                  obtain ⟨b, hb1, hb, rfl⟩ := hs c hmem
                  rw [chr_codePoint b hb] at hcp
                  cases hcp
                  rcases hnum with hd | hd | hd
                  · exact .inl ((isDigit_iff_digit b hb).mp hd)
                  · exact .inr (.inl hd)
                  · exact .inr (.inr hd)
                obtain ⟨k1, t, rest, k2, k3, k4, k5, k6⟩ := parseNumber_inv hs ops hci hc' h
                refine ⟨k1, .inr ⟨w, u, h2, h1, ?_⟩⟩
                rw [at_unique h4 k2, show s.drop p' = rest from k6]
                exact .number c t j rest hc' k3 k4 k5
              · exact absurd (fail_ok h) (by decide)

theorem objSound_succ (hlen : s.length < npos) (ops : FloatOps F) {n : Nat} (hv : ValSound ops s n)
    (ho : ObjSound ops s n) : ObjSound ops s (n + 1) := by
  intro p p' e acc j h
  rw [objectLoop] at h
  split at h
  · obtain ⟨q, hq, h⟩ := bind_ok h
    obtain ⟨c, hc, h⟩ := bind_ok h
    obtain ⟨w, u, h1, h2, h3, rfl, h4⟩ := skip_inv hs hq
    have hci := index_inv hc
    have hu := at_unique h4 hci
    split at h
    · rename_i hcl
      cases h
      refine ⟨rfl, w, u, h2, h1, .inl ⟨?_, rfl⟩⟩
      rw [hu, show c = chr 0x7D from hcl]
    · split at h
      · rename_i hqu
        rw [show c = chr 0x22 from hqu] at hci hu
        obtain ⟨r, hr, h⟩ := bind_ok h
        rcases memberKey_inv hs hlen hr with ⟨e', q, rfl, hne⟩ | ⟨key, q, w₁, w₂, v, rfl, a1, a2, a3, a4, a5, a6, _⟩
        · exact absurd (fail_ok h).symm hne
        · obtain ⟨⟨j', st⟩, hj', h⟩ := bind_ok h
          obtain ⟨r, hr, h⟩ := bind_ok h
          obtain ⟨p₂, e₂⟩ := st
          change afterValue s (chr 0x7D) p₂ = .ok r at hr
          rcases afterValue_inv hs hr with ⟨q₂, w₃, rest, rfl, b1, b2, b3⟩ |
            ⟨q₂, w₃, w₄, c', u', rfl, b1, b2, b3, b4, b5, b6⟩ | ⟨e', q₂, rfl, hne⟩
          · cases h
            obtain ⟨k1, k2⟩ := hv _ _ _ _ hj'
            refine ⟨k1, w, u, h2, h1, .inr ?_⟩
            rcases k2 with ⟨_, k2⟩ | ⟨w₅, u₅, k2, k3, k4⟩
            · have := b2.le; omega
            · have e1 := at_unique a5 k3
              rw [e1] at a6
              have := spaces_nil_of k2 a6
              subst this
              refine ⟨[(key, j')], ?_, rfl⟩
              rw [show s.drop p₂ = _ from b2] at k4
              rw [hu, at_unique hci.cons a4, e1, show s.drop p' = rest from b3]
              have := Members.last (ops := ops) (lits := true) key w₁ w₂ w₃ u₅ j' rest a1 a2 a3 b1 k4
              simpa using this
          · obtain ⟨k1, w₆, u₆, k2, k3, k4⟩ := ho _ _ _ _ _ h
            obtain rfl : e₂ = .noError := k1
            obtain ⟨m1, m2⟩ := hv _ _ _ _ hj'
            refine ⟨m1, w, u, h2, h1, .inr ?_⟩
            have e2 := at_unique b4 k3
            rw [e2] at b5
            have := spaces_nil_of k2 b5
            subst this
            rw [List.nil_append] at e2
            subst e2
            rcases m2 with ⟨_, m2⟩ | ⟨w₅, u₅, m2, m3, m4⟩
            · have := b3.le; omega
            · have e1 := at_unique a5 m3
              rw [e1] at a6
              have := spaces_nil_of m2 a6
              subst this
              rcases k4 with ⟨k5, _⟩ | ⟨ms, k5, rfl⟩
              · injection k5 with k5 _
                exact absurd k5 b6
              · refine ⟨(key, j') :: ms, ?_, rfl⟩
                change Val ops true u₅ j' (s.drop p₂) at m4
                rw [show s.drop p₂ = _ from b3] at m4
                rw [hu, at_unique hci.cons a4, e1]
                have := Members.more (ops := ops) (lits := true) key w₁ w₂ w₃ w₄ u₅ j' _ ms _ a1 a2 a3 b1 b2
                  (by simpa using m4) k5
                simpa using this
          · exact absurd (fail_ok h).symm hne
      · exact absurd (fail_ok h) (by decide)
  · exact absurd (fail_ok h) (by decide)

theorem arrSound_succ (ops : FloatOps F) {n : Nat} (hv : ValSound ops s n)
    (ho : ArrSound ops s n) : ArrSound ops s (n + 1) := by
  intro p p' e acc j h
  rw [arrayLoop] at h
  split at h
  · obtain ⟨q, hq, h⟩ := bind_ok h
    obtain ⟨c, hc, h⟩ := bind_ok h
    obtain ⟨w, u, h1, h2, h3, rfl, h4⟩ := skip_inv hs hq
    have hci := index_inv hc
    have hu := at_unique h4 hci
    split at h
    · rename_i hcl
      cases h
      refine ⟨rfl, w, u, h2, h1, .inl ⟨?_, rfl⟩⟩
      rw [hu, show c = chr 0x5D from hcl]
    · obtain ⟨⟨j', st⟩, hj', h⟩ := bind_ok h
      obtain ⟨r, hr, h⟩ := bind_ok h
      obtain ⟨p₂, e₂⟩ := st
      change afterValue s (chr 0x5D) p₂ = .ok r at hr
      rcases afterValue_inv hs hr with ⟨q₂, w₃, rest, rfl, b1, b2, b3⟩ |
        ⟨q₂, w₃, w₄, c', u', rfl, b1, b2, b3, b4, b5, b6⟩ | ⟨e', q₂, rfl, hne⟩
      · cases h
        obtain ⟨k1, k2⟩ := hv _ _ _ _ hj'
        refine ⟨k1, w, u, h2, h1, .inr ?_⟩
        rcases k2 with ⟨_, k2⟩ | ⟨w₅, u₅, k2, k3, k4⟩
        · have := b2.le; omega
        · have e1 := at_unique h4 k3
          rw [e1] at h3
          have := spaces_nil_of k2 h3
          subst this
          refine ⟨[j'], ?_, rfl⟩
          rw [show s.drop p₂ = _ from b2] at k4
          rw [e1, show s.drop p' = rest from b3]
          exact .last w₃ u₅ j' rest b1 k4
      · obtain ⟨k1, w₆, u₆, k2, k3, k4⟩ := ho _ _ _ _ _ h
        obtain rfl : e₂ = .noError := k1
        obtain ⟨m1, m2⟩ := hv _ _ _ _ hj'
        refine ⟨m1, w, u, h2, h1, .inr ?_⟩
        have e2 := at_unique b4 k3
        rw [e2] at b5
        have := spaces_nil_of k2 b5
        subst this
        rw [List.nil_append] at e2
        subst e2
        rcases m2 with ⟨_, m2⟩ | ⟨w₅, u₅, m2, m3, m4⟩
        · have := b3.le; omega
        · have e1 := at_unique h4 m3
          rw [e1] at h3
          have := spaces_nil_of m2 h3
          subst this
          rcases k4 with ⟨k5, _⟩ | ⟨js, k5, rfl⟩
          · injection k5 with k5 _
            exact absurd k5 b6
          · refine ⟨j' :: js, ?_, by simp⟩
            change Val ops true u₅ j' (s.drop p₂) at m4
            rw [show s.drop p₂ = _ from b3] at m4
            rw [e1]
            exact .more w₃ w₄ u₅ j' _ js _ b1 b2 (by simpa using m4) k5
      · exact absurd (fail_ok h).symm hne
  · exact absurd (fail_ok h) (by decide)

theorem sound_all (hlen : s.length < npos) (ops : FloatOps F) :
    ∀ n, ValSound ops s n ∧ ObjSound ops s n ∧ ArrSound ops s n
  | 0 => ⟨(fun _ _ _ _ h => by rw [parseValue] at h; cases h), (fun _ _ _ _ _ h => by rw [objectLoop] at h; cases h),
      (fun _ _ _ _ _ h => by rw [arrayLoop] at h; cases h)⟩
  | n + 1 => by
    obtain ⟨hv, ho, ha⟩ := sound_all hlen ops n
    exact ⟨valSound_succ hs ops ho ha, objSound_succ hs hlen ops hv ho, arrSound_succ hs ops hv ha⟩

omit hs in
theorem val_brace {ops : FloatOps F} {lits : Bool} {u rest : Str} {j : Json F}
    (h : Val ops lits (chr 0x7B :: u) j rest) : ∃ ms, j = .obj ms := by
  generalize hg : chr 0x7B :: u = g at h
  cases h with
  | emptyObject => exact ⟨_, rfl⟩
  | object => exact ⟨_, rfl⟩
  | number c t _ _ hc =>
    injection hg with hg _
    subst hg
    rcases hc with hc | hc | hc
    · exact absurd ((digit_chr 0x7B).mp hc) (by decide)
    · exact absurd (chr_inj hc) (by decide)
    · exact absurd (chr_inj hc) (by decide)
  | null => injection hg with hg _; exact absurd (chr_inj (b := 0x6E) hg) (by decide)
  | true => injection hg with hg _; exact absurd (chr_inj (b := 0x74) hg) (by decide)
  | false => injection hg with hg _; exact absurd (chr_inj (b := 0x66) hg) (by decide)
  | string => injection hg with hg _; exact absurd (chr_inj hg) (by decide)
  | emptyArray => injection hg with hg _; exact absurd (chr_inj hg) (by decide)
  | array => injection hg with hg _; exact absurd (chr_inj hg) (by decide)

theorem parse_sound (hlen : s.length < npos) (ops : FloatOps F) {j : Json F} {p : Nat}
    (h : parse ops s = .ok (j, ⟨p, .noError⟩)) : Document ops true s j := by
  unfold parse at h
  split at h
  · exact absurd (fail_ok h) (by decide)
  · rename_i hne
    obtain ⟨first, hfirst, h⟩ := bind_ok h
    obtain ⟨last, hlast, h⟩ := bind_ok h
    obtain ⟨c, hc, h⟩ := bind_ok h
    split at h
    · exact absurd (fail_ok h) (by decide)
    · rename_i hcb
      obtain ⟨d, hd, h⟩ := bind_ok h
      split at h
      · exact absurd (fail_ok h) (by decide)
      · rename_i hdb
        have hcb : c = chr 0x7B := by
          by_cases e : c = chr 0x7B
          · exact e
          · exact absurd e hcb
        have hdb : d = chr 0x7D := by
          by_cases e : d = chr 0x7D
          · exact e
          · exact absurd e hdb
        subst hcb hdb
        obtain ⟨w, u, e1, h2, h3, hf⟩ := firstNonSpace_inv s 0 first hs hfirst
        rw [hf, Nat.zero_add] at hc
        have hci := index_inv hc
        have hw : At s w.length u := by unfold At; rw [e1, List.drop_left]
        have hu := at_unique hw hci
        obtain ⟨_, k⟩ := (sound_all hs hlen ops _).1 _ _ _ _ h
        have hsp : ¬ Space (chr 0x7B) := by unfold Space; decide
        rcases k with ⟨k, _⟩ | ⟨w', u', k1, k2, k3⟩
        · refine absurd (k (chr 0x7B) ?_) hsp
          rw [List.drop_zero, e1, hu]; simp
        · obtain ⟨b, v, hv, hb, hnsp, _⟩ := val_head k3
          have e2 : w ++ chr 0x7B :: s.drop (w.length + 1) = w' ++ chr b :: v := by
            rw [← hu, ← hv, ← e1]; exact k2
          obtain ⟨_, e3, _⟩ := spaces_unique h2 k1 hsp hnsp e2
          rw [hv, ← e3] at k3
          obtain ⟨ms, hms⟩ := val_brace k3
          rw [e3, ← hv] at k3
          refine ⟨w', u', _, ms, k1, k2, k3, hms, ?_⟩
          -- the last character
          unfold StrUtil.findLastNonSpace at hlast
          have hpos : s.length ≠ 0 := by simpa using hne
          rw [if_neg hpos] at hlast
          obtain ⟨k, hk, hcase⟩ := StrUtil.lastNonSpace_spec s (fun c hc => by
            obtain ⟨b, _, hb, rfl⟩ := hs c hc
            exact ⟨_, chr_codePoint b hb⟩) (s.length - 1) (by omega)
          rw [hk] at hlast
          cases hlast
          have hdi := index_inv hd
          rcases hcase with ⟨q1, q2, _, q4⟩ | ⟨q1, _⟩
          · refine ⟨s.take last, s.drop (last + 1), ?_, ?_⟩
            · intro c hc
              obtain ⟨i, hi, rfl⟩ := List.getElem_of_mem hc
              rw [List.getElem_drop]
              simp at hi
              obtain ⟨c', cp, m1, m2, m3⟩ := q4 (last + 1 + i) (by omega) (by omega)
              obtain ⟨hlt, rfl⟩ := List.getElem?_eq_some_iff.mp m1
              obtain ⟨b, _, hb, he⟩ := hs _ (List.getElem_mem hlt)
              rw [he, chr_codePoint b hb] at m2
              cases m2
              rw [he]
              exact (space_iff b hb).mp m3
            · conv => lhs; rw [← List.take_append_drop last s]
              rw [show s.drop last = _ from hdi]
          · subst q1
            exact absurd hdi.lt (by omega)

end
end Caitlyn
