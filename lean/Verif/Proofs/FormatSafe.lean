import Verif.Proofs.Format
import Verif.Proofs.Safe

/-! # Helper lemmas: `String::Format` without undefined behaviour -/

namespace Caitlyn.Format
open Caitlyn.Spec

theorem safe_spanDigits : ∀ s : Str, Shapes s → Safe (fun p => s = p.1 ++ p.2) (spanDigits s)
  | [], _ => rfl
  | c :: s, h => by
    unfold spanDigits
    refine (Shape.safe_getCodePoint (h c (by simp))).bind fun cp _ => ?_
    split
    · refine (safe_spanDigits s (h.sub (by simp +contextual))).bind fun p hp => ?_
      exact Safe.pure (by simp [hp])
    · exact Safe.pure rfl

theorem safe_startsWithDigit (s : Str) (h : Shapes s) : Safe (fun _ => True) (startsWithDigit s) := by
  cases s with
  | nil => trivial
  | cons c s =>
    exact (Shape.safe_getCodePoint (h c (by simp))).bind fun cp _ => trivial

theorem safe_stoul (b : Nat) (s : List UInt8) : Safe (fun _ => True) (StdNum.stoul b s) := by
  unfold StdNum.stoul
  repeat' split
  all_goals simp [Safe]

theorem safe_stoi (b : Nat) (s : List UInt8) : Safe (fun _ => True) (StdNum.stoi b s) := by
  unfold StdNum.stoi StdNum.signed
  split
  · simp [Safe]
  · dsimp only
    rename_i neg n _
    generalize (if neg = true then -(n : Int) else (n : Int)) = v
    by_cases h : -(2 ^ (32 - 1)) ≤ v ∧ v < 2 ^ (32 - 1)
    · rw [if_pos h]; trivial
    · rw [if_neg h]; exact ⟨by simp, by simp⟩

theorem safe_argIndex (s : Str) : Safe (fun _ => True) (argIndex s) := by
  unfold argIndex
  have := safe_stoul 10 (Str.str s)
  split
  · simp [Safe]
  · exact this

/-- What the steps of the specification parser keep. -/
def StepOk (s : Str) (p : Specifier × Str) : Prop := Shape p.1.fill.data ∧ p.2 <:+ s

theorem Shapes.suffix {a b : Str} (hb : Shapes b) (h : a <:+ b) : Shapes a :=
  hb.sub fun c hc => h.subset hc

theorem safe_parseAlignment (spec : Specifier) (hf : Shape spec.fill.data) (s : Str) (hs : Shapes s) (hne : s ≠ []) :
    Safe (StepOk s) (parseAlignment spec s) := by
  unfold parseAlignment
  cases s with
  | nil => exact absurd rfl hne
  | cons c rest =>
    simp only []
    have hc := hs c (by simp)
    repeat' split
    all_goals
      refine ⟨?_, ?_⟩
      · first | exact hf | exact hc
      · first
          | exact List.suffix_refl _
          | exact List.suffix_cons _ _
          | exact (List.suffix_cons _ _).trans (List.suffix_cons _ _)

theorem safe_parseWidth (spec : Specifier) (hf : Shape spec.fill.data) (s : Str) (hs : Shapes s) :
    Safe (StepOk s) (parseWidth spec s) := by
  unfold parseWidth
  refine (safe_startsWithDigit s hs).bind fun b _ => ?_
  split
  · refine (safe_stoul _ _).bind fun w _ => ?_
    refine (safe_spanDigits s hs).bind fun p hp => ?_
    exact ⟨hf, ⟨p.1, hp.symm⟩⟩
  · exact ⟨hf, List.suffix_refl _⟩

theorem safe_parsePrecision (spec : Specifier) (hf : Shape spec.fill.data) (s : Str) (hs : Shapes s) :
    Safe (StepOk s) (parsePrecision spec s) := by
  unfold parsePrecision
  split
  · exact ⟨hf, List.suffix_refl _⟩
  · rename_i c rest
    split
    · have hr : Shapes rest := hs.sub (by simp +contextual)
      refine (safe_startsWithDigit rest hr).bind fun b _ => ?_
      split
      · refine (safe_stoi _ _).bind fun w _ => ?_
        refine (safe_spanDigits rest hr).bind fun p hp => ?_
        exact ⟨hf, List.IsSuffix.trans ⟨p.1, hp.symm⟩ (List.suffix_cons _ _)⟩
      · exact ⟨hf, List.suffix_cons _ _⟩
    · exact ⟨hf, List.suffix_refl _⟩

theorem parseValueType_fill (spec : Specifier) (s : Str) : (parseValueType spec s).fill = spec.fill := by
  unfold parseValueType
  repeat' split
  all_goals rfl

theorem safe_makeSpecifier (config : Str) (hs : Shapes config) (h2 : 2 ≤ config.length) :
    Safe (fun spec => Shape spec.fill.data) (makeSpecifier config) := by
  unfold makeSpecifier
  cases config with
  | nil => simp at h2
  | cons c rest =>
    simp only []
    split
    · simp [Safe]
    · have hr : Shapes rest := hs.sub (by simp +contextual)
      refine (safe_parseAlignment {} (.one _ (by decide) (by decide)) rest hr (by
        rintro rfl; simp at h2)).bind fun p hp => ?_
      refine (safe_parseWidth p.1 hp.1 p.2 (Shapes.suffix hr hp.2)).bind fun q hq => ?_
      have hq2 := Shapes.suffix (Shapes.suffix hr hp.2) hq.2
      refine (safe_parsePrecision q.1 hq.1 q.2 hq2).bind fun r hr => ?_
      refine Safe.pure ?_
      rw [parseValueType_fill]
      exact hr.1

theorem safe_fractionDigits : ∀ (s : Str) (n : Nat), Shapes s → Safe (fun d => Shapes d) (fractionDigits s n)
  | [], _, _ => Shapes.nil
  | c :: s, n, h => by
    unfold fractionDigits
    refine (Shape.safe_getCodePoint (h c (by simp))).bind fun cp _ => ?_
    split
    · cases n with
      | zero => exact Shapes.nil
      | succ n =>
        refine (safe_fractionDigits s n (h.sub (by simp +contextual))).bind fun d hd => ?_
        exact Shapes.cons (h c (by simp)) hd
    · exact Shapes.nil

/-- The bytes are those of a text of shaped characters. -/
def TextBytes (bs : List UInt8) : Prop := ∃ t, Shapes t ∧ bs = Str.str t

theorem TextBytes.append {a b : List UInt8} (ha : TextBytes a) (hb : TextBytes b) : TextBytes (a ++ b) := by
  obtain ⟨s, h1, rfl⟩ := ha
  obtain ⟨t, h2, rfl⟩ := hb
  exact ⟨s ++ t, h1.append h2, (Str.str_append s t).symm⟩

theorem TextBytes.str {s : Str} (h : Shapes s) : TextBytes (Str.str s) := ⟨s, h, rfl⟩

theorem TextBytes.zeros (n : Nat) : TextBytes (List.replicate n 0x30) :=
  ⟨List.replicate n ⟨b!"0"⟩, Shapes.replicate n (.one _ (by decide) (by decide)), by
    induction n with
    | zero => rfl
    | succ n ih => rw [List.replicate_succ, List.replicate_succ, ih]; rfl⟩

theorem safe_floatingText (v : Str) (hv : Shapes v) (spec : Specifier) : Safe TextBytes (floatingText v spec) := by
  unfold floatingText
  have hf : Safe (fun d => d ≠ npos → d ≤ v.length) (Str.find v c!"." 0) := by
    unfold Str.find
    rw [if_neg (by omega)]
    intro h
    simp only [List.drop_zero, Nat.zero_add] at h ⊢
    split at h
    · by_cases ho : Occurs c!"." v
      · have := Str.search_lt v c!"." (by simp) ho
        split <;> omega
      · exact absurd (Str.search_none v _ ho) (by assumption)
    · exact absurd rfl h
  refine hf.bind fun dot hd => ?_
  split
  · rename_i hdn
    have hs : Safe (fun t => Shapes t) (Str.substring v 0 (dot + 1)) := by
      unfold Str.substring
      rw [if_neg (by omega)]
      exact hv.sub fun c hc => by
        have := List.mem_of_mem_take hc
        rwa [List.drop_zero] at this
    refine hs.bind fun head hh => ?_
    split
    · refine (safe_fractionDigits _ _ (hv.sub fun c hc => List.mem_of_mem_drop hc)).bind fun ds hds => ?_
      exact ((TextBytes.str hh).append (.str hds)).append (.zeros _)
    · exact TextBytes.str hh
  · split
    · exact ((TextBytes.str hv).append ⟨c!".", Shapes.cons (.one _ (by decide) (by decide)) .nil, rfl⟩).append
        (.zeros _)
    · exact TextBytes.str hv

theorem safe_process (v : Str) (hv : Shapes v) (spec : Specifier) (hf : Shape spec.fill.data) :
    Safe (fun r => Shapes r) (process v spec) := by
  unfold process
  split
  · rw [processAlignment_pad]; exact pad_shape _ _ _ _ hf hv
  · unfold processFloating
    refine (safe_floatingText v hv spec).bind fun out ⟨t, ht, e⟩ => ?_
    rw [e, Str.ofStdString_str t ht]
    show Safe _ (processAlignment t spec)
    rw [processAlignment_pad]; exact pad_shape _ _ _ _ hf ht
  · rw [processAlignment_pad]; exact pad_shape _ _ _ _ hf hv

theorem safe_vecGet (args : List Str) (ha : ∀ a ∈ args, Shapes a) (i : Nat) (hi : i < args.length) :
    Safe (fun a => Shapes a) (vecGet args i) := by
  unfold vecGet
  rw [List.getElem?_eq_getElem hi]
  exact ha _ (List.getElem_mem hi)

theorem safe_placeholder (args : List Str) (ha : ∀ a ∈ args, Shapes a) (hl : args.length < 2 ^ 63) (auto : Nat)
    (hauto : auto < args.length) (spec : Str) (hs : Shapes spec) (hc : spec.getLast? ≠ some ⟨b!":"⟩) :
    Safe (fun p => TextBytes p.1 ∧ (args.length = 1 → p.2 = auto) ∧ p.2 ≤ auto + 1) (placeholder args auto spec) := by
  have htwo : ∀ c t, ⟨b!":"⟩ :: t <:+ spec → c = ⟨b!":"⟩ → 2 ≤ (c :: t : Str).length := by
    intro c t hsuf _
    cases t with
    | cons d t => simp
    | nil =>
      obtain ⟨u, hu⟩ := hsuf
      exact absurd (by rw [← hu]; simp) hc
  unfold placeholder
  refine (safe_startsWithDigit spec hs).bind fun b _ => ?_
  split
  · refine (safe_spanDigits spec hs).bind fun p hp => ?_
    refine (safe_argIndex p.1).bind fun i _ => ?_
    split
    · simp [Safe]
    · rename_i hi
      have hi' : i < args.length := by unfold wsub twoPow64 at hi; omega
      have hsuf : p.2 <:+ spec := ⟨p.1, hp.symm⟩
      split
      · refine (safe_vecGet args ha i hi').bind fun a haa => ?_
        exact ⟨.str haa, fun _ => rfl, Nat.le_succ _⟩
      · rename_i c t heq
        split
        · rename_i hcc
          have : p.2 = c :: t := heq
          refine (safe_makeSpecifier p.2 (Shapes.suffix hs hsuf) (this ▸ htwo c t (by
            rw [← hcc, ← this]; exact hsuf) hcc)).bind fun sp hsp => ?_
          refine (safe_vecGet args ha auto hauto).bind fun a haa => ?_
          refine (safe_process a haa sp hsp).bind fun r hr => ?_
          exact ⟨.str hr, fun _ => rfl, Nat.le_succ _⟩
        · exact ⟨⟨[], Shapes.nil, rfl⟩, fun _ => rfl, Nat.le_succ _⟩
  · split
    · rename_i hcc
      obtain ⟨t, ht⟩ : ∃ t, spec = ⟨b!":"⟩ :: t := by
        cases spec with
        | nil => cases hcc
        | cons c t => simp only [List.head?_cons, Option.some.injEq] at hcc; exact ⟨t, by rw [hcc]⟩
      refine (safe_makeSpecifier spec hs (by
        rw [ht]; exact htwo _ t (by rw [ht]; exact List.suffix_refl _) rfl)).bind fun sp hsp => ?_
      refine (safe_vecGet args ha 0 (by omega)).bind fun a haa => ?_
      refine (safe_process a haa sp hsp).bind fun r hr => ?_
      exact ⟨.str hr, fun _ => rfl, Nat.le_succ _⟩
    · split
      · refine (safe_vecGet args ha 0 (by omega)).bind fun a haa => ?_
        exact ⟨.str haa, fun _ => rfl, Nat.le_succ _⟩
      · split
        · rename_i h1 _
          refine (safe_vecGet args ha auto hauto).bind fun a haa => ?_
          exact ⟨.str haa, fun h => absurd h h1, Nat.le_refl _⟩
        · simp [Safe]

theorem count_drop_le (c : Chr) (s : Str) (n : Nat) : (s.drop n).count c ≤ s.count c :=
  (List.drop_sublist n s).count_le c

/-- The loop on any template, the number of `{` being at most the number of arguments left. -/
theorem safe_loop (args : List Str) (ha : ∀ a ∈ args, Shapes a) (hl : args.length < 2 ^ 63) (hne : args ≠ []) :
    ∀ (n : Nat) (s : Str) (auto : Nat), Shapes s → ¬ Occurs c!":}" s → s.length < n →
      (args.length = 1 ∧ auto = 0 ∨ auto + s.count ⟨b!"{"⟩ ≤ args.length) →
      Safe TextBytes (loop args n s auto)
  | 0, _, _, _, _, h, _ => absurd h (Nat.not_lt_zero _)
  | n + 1, [], _, _, _, _, _ => ⟨[], Shapes.nil, rfl⟩
  | n + 1, c :: rest, auto, hs, ho, hn, hk => by
    have h0 : 0 < args.length := List.length_pos_iff.mpr hne
    rw [List.length_cons] at hn
    have hrest : Shapes rest := hs.sub (by simp +contextual)
    have hc : Shape c.data := hs c (by simp)
    have hod : ∀ k, ¬ Occurs c!":}" ((c :: rest).drop k) := by
      intro k h
      rw [occurs_iff_infix] at h ho
      exact ho (h.trans (List.drop_suffix k _).isInfix)
    have hdk : ∀ k auto', auto' = auto → (args.length = 1 ∧ auto' = 0 ∨
        auto' + (List.drop k (c :: rest)).count ⟨b!"{"⟩ ≤ args.length) := by
      rintro k _ rfl
      rcases hk with h | h
      · exact .inl h
      · have := count_drop_le ⟨b!"{"⟩ (c :: rest) k
        exact .inr (by omega)
    rw [loop]
    split
    · rename_i hcb
      split
      · refine (safe_loop args ha hl hne n (rest.drop 1) auto (hrest.sub fun _ h => List.mem_of_mem_drop h)
          (hod 2) (by rw [List.length_drop]; omega) (hdk 2 auto rfl)).bind fun out hout => ?_
        exact TextBytes.append ⟨c!"{", Shapes.cons (.one _ (by decide) (by decide)) .nil, rfl⟩ hout
      · simp only []
        split
        · simp [Safe]
        · rename_i hsr
          have hocc : Occurs c!"}" (c :: rest) := by
            apply Classical.byContradiction
            intro h
            exact hsr (Str.search_none _ _ h)
          have hkk := Str.search_lt (c :: rest) c!"}" (by simp) hocc
          obtain ⟨hat, _⟩ := Str.search_occ (c :: rest) c!"}" hocc
          generalize Str.search (c :: rest) c!"}" = k at hsr hkk hat
          rw [occursAt_iff] at hat
          obtain ⟨hat, _⟩ := hat
          have hk1 : 1 ≤ k := by
            rcases Nat.eq_zero_or_pos k with h | h
            · subst h; subst hcb
              exact absurd hat (by simp [List.isPrefixOf])
            · exact h
          have hsub : Str.substring (c :: rest) 1 (k - 1) = .ok (rest.take (k - 1)) := by
            unfold Str.substring
            rw [if_neg (by simp), List.drop_succ_cons, List.drop_zero, Nat.min_eq_left (by
              simp only [List.length_cons] at hkk ⊢; omega)]
          rw [hsub]
          simp only [bind, Except.bind]
          have hlast : (rest.take (k - 1)).getLast? ≠ some ⟨b!":"⟩ := by
            intro hl
            apply ho
            rw [occurs_iff_infix]
            obtain ⟨ys, hys⟩ := List.getLast?_eq_some_iff.mp hl
            obtain ⟨zs, hzs⟩ := hat
            refine ⟨c :: ys, zs, ?_⟩
            have : c :: rest = c :: (rest.take (k - 1) ++ rest.drop (k - 1)) := by rw [List.take_append_drop]
            rw [this, hys]
            have h2 : rest.drop (k - 1) = c!"}" ++ zs := by
              rw [hzs]
              obtain ⟨j, rfl⟩ : ∃ j, k = j + 1 := ⟨k - 1, by omega⟩
              rfl
            rw [h2]; simp
          have hauto : auto < args.length := by
            rcases hk with h | h
            · omega
            · rw [hcb, List.count_cons_self] at h; omega
          refine Safe.bind (r := placeholder args auto (rest.take (k - 1))) (safe_placeholder args ha hl auto hauto _
            (hrest.sub fun _ h => List.mem_of_mem_take h) hlast) fun p hp => ?_
          refine Safe.bind (r := loop args n ((c :: rest).drop (k + 1)) p.2) (safe_loop args ha hl hne n _ p.2
            (hs.sub fun _ h => List.mem_of_mem_drop h) (hod _) (by
              rw [List.length_drop, List.length_cons]; omega) ?_) fun out hout => ?_
          · rcases hk with ⟨h, h'⟩ | h
            · exact .inl ⟨h, by rw [hp.2.1 h, h']⟩
            · right
              rw [hcb, List.count_cons_self] at h
              rw [List.drop_succ_cons]
              have := count_drop_le ⟨b!"{"⟩ rest k
              have := hp.2.2
              omega
          · exact hp.1.append hout
    · split
      · split
        · refine (safe_loop args ha hl hne n (rest.drop 1) auto (hrest.sub fun _ h => List.mem_of_mem_drop h)
            (hod 2) (by rw [List.length_drop]; omega) (hdk 2 auto rfl)).bind fun out hout => ?_
          exact TextBytes.append ⟨c!"}", Shapes.cons (.one _ (by decide) (by decide)) .nil, rfl⟩ hout
        · simp [Safe]
      · refine (safe_loop args ha hl hne n rest auto hrest (hod 1) (by omega) (hdk 1 auto rfl)).bind fun out hout => ?_
        have : c.printed = Str.str [c] := by simp [Str.str]
        rw [this]
        exact (TextBytes.str (Shapes.cons hc .nil)).append hout

end Caitlyn.Format
