import Verif.Model.FormatCost
import Verif.Proofs.FormatSafe
import Verif.Proofs.FormatFull
import Verif.Props.FindCost

/-! # Proofs about the work of `Format` -/

namespace Caitlyn.FormatCost
open Format Caitlyn.Spec

theorem next_snd {α β : Type} (x : Work α) (f : α → Work β) : (next x f).2 = x.2 >>= fun a => (f a).2 := by
  unfold next; cases x.2 <;> rfl

theorem next_le {α β : Type} {x : Work α} {f : α → Work β} {A B : Nat} (hx : x.1 ≤ A)
    (hf : ∀ a, x.2 = .ok a → (f a).1 ≤ B) : (next x f).1 ≤ A + B := by
  unfold next
  cases h : x.2 with
  | ok a => have := hf a h; simp only; omega
  | error e => simp only; omega

/-! ### The results are those of `Model/Format` -/

theorem spanDigits_same : ∀ s : Str, (spanDigitsC s).2 = spanDigits s
  | [] => rfl
  | c :: s => by
    rw [spanDigitsC, spanDigits, next_snd]
    congr 1; funext cp
    split
    · rw [next_snd, spanDigits_same s]; rfl
    · rfl

theorem parseWidth_same (spec : Specifier) (s : Str) : (parseWidthC spec s).2 = parseWidth spec s := by
  rw [parseWidthC, parseWidth, next_snd]
  congr 1; funext b
  cases b
  · rfl
  · simp only [if_true]
    rw [next_snd]
    congr 1; funext w
    rw [next_snd, spanDigits_same]; rfl

theorem parsePrecision_same (spec : Specifier) (s : Str) : (parsePrecisionC spec s).2 = parsePrecision spec s := by
  unfold parsePrecisionC parsePrecision
  cases s with
  | nil => rfl
  | cons c s =>
    simp only
    split
    · rw [next_snd]
      congr 1; funext b
      cases b
      · rfl
      · simp only [if_true]
        rw [next_snd]
        congr 1; funext w
        rw [next_snd, spanDigits_same]; rfl
    · rfl

theorem makeSpecifier_same (s : Str) : (makeSpecifierC s).2 = makeSpecifier s := by
  unfold makeSpecifierC makeSpecifier
  cases s with
  | nil => rfl
  | cons c s =>
    simp only
    split
    · rfl
    · rw [next_snd]
      congr 1; funext p
      rw [next_snd, parseWidth_same]
      congr 1; funext q
      rw [next_snd, parsePrecision_same]
      rfl

theorem processAlignment_same (v : Str) (spec : Specifier) : (processAlignmentC v spec).2 = processAlignment v spec := by
  unfold processAlignmentC processAlignment
  split
  · rfl
  · cases spec.align with
    | left => rfl
    | right => rfl
    | center => simp only [next_snd]; rfl

theorem fractionDigits_same : ∀ (s : Str) (n : Nat), (fractionDigitsC s n).2 = fractionDigits s n
  | [], _ => by rw [fractionDigitsC, fractionDigits]
  | c :: s, n => by
    rw [fractionDigitsC.eq_def, fractionDigits.eq_def]
    simp only
    rw [next_snd]
    congr 1; funext cp
    split
    · cases n with
      | zero => rfl
      | succ n => simp only; rw [next_snd, fractionDigits_same s n]; rfl
    · rfl

theorem find_same (s sub : Str) (pos : Nat) : (findC s sub pos).2 = Str.find s sub pos := by
  unfold findC FindCost.findC Str.find
  split
  · rename_i h
    split at h
    · cases h
    · rename_i hp
      rw [if_neg hp, ← FindCost.searchC_search]
      simp only [Except.ok.injEq, Prod.mk.injEq] at h
      simp only [h.2]
  · rename_i h
    split at h
    · rename_i hp
      rw [if_pos hp]; cases h; rfl
    · cases h

theorem floatingText_same (v : Str) (spec : Specifier) : (floatingTextC v spec).2 = floatingText v spec := by
  unfold floatingTextC floatingText
  rw [next_snd, find_same]
  congr 1; funext dot
  split
  · rw [next_snd]
    congr 1; funext head
    split
    · rw [next_snd, fractionDigits_same]; rfl
    · rfl
  · split <;> rfl

theorem process_same (v : Str) (spec : Specifier) : (processC v spec).2 = process v spec := by
  unfold processC process
  cases spec.type with
  | integral => simp only; rw [next_snd]; exact processAlignment_same v spec
  | string => simp only; rw [next_snd]; exact processAlignment_same v spec
  | floating =>
    simp only
    unfold processFloatingC processFloating
    rw [next_snd, floatingText_same]
    congr 1; funext out
    rw [next_snd]
    congr 1; funext r
    exact processAlignment_same r spec

theorem formatted_same (args : List Str) (i : Nat) (t : Str) : (formattedC args i t).2 = (do
    let parsed ← makeSpecifier t
    let a ← vecGet args i
    let r ← process a parsed
    return Str.str r) := by
  unfold formattedC
  rw [next_snd, makeSpecifier_same]
  congr 1; funext parsed
  rw [next_snd]
  congr 1; funext a
  rw [next_snd, process_same]; rfl

theorem formatted_pair (args : List Str) (i auto : Nat) (t : Str) :
    (next (formattedC args i t) fun r => (1, .ok (r, auto))).2 = (do
      let parsed ← makeSpecifier t
      let a ← vecGet args i
      let r ← process a parsed
      return (Str.str r, auto)) := by
  rw [next_snd, formatted_same]
  cases makeSpecifier t with
  | error e => rfl
  | ok spec =>
    cases vecGet args i with
    | error e => rfl
    | ok a =>
      simp only [bind, Except.bind]
      cases process a spec <;> rfl

theorem got_pair (args : List Str) (i k : Nat) :
    (next (1, vecGet args i) fun a => (a.length, .ok (Str.str a, k))).2 = (do
      let a ← vecGet args i
      return (Str.str a, k) : Res (List UInt8 × Nat)) := by
  rw [next_snd]; rfl

theorem indexed_same (args : List Str) (auto i : Nat) (f : Str) :
    (indexedC args auto i f).2 =
      match f with
      | [] => do
        let a ← vecGet args i
        return (Str.str a, auto)
      | c :: _ =>
        if c = ⟨b!":"⟩ then do
          let parsed ← makeSpecifier f
          let a ← vecGet args auto
          let r ← process a parsed
          return (Str.str r, auto)
        else return ([], auto) := by
  cases f with
  | nil => exact got_pair args i auto
  | cons c t =>
    rw [indexedC]
    by_cases hc : c = ⟨b!":"⟩
    · rw [if_pos hc]
      simp only [if_pos hc]
      exact formatted_pair args auto auto _
    · rw [if_neg hc]
      simp only [if_neg hc]
      rfl

/-- The branch for a placeholder with an index; the conversion of the index and the bound are kept abstract. -/
theorem digits_same (index : Str → Res Nat) (m : Nat) (args : List Str) (auto : Nat) (spec : Str) :
    (next (spanDigitsC spec) fun p =>
      next (reading p.1.length, index p.1) fun i =>
        if i > m then (1, .error .formatError)
        else next (cutting p.2.length, .ok p.2) (indexedC args auto i) : Work (List UInt8 × Nat)).2 = (do
      let (digits, formatSpec) ← spanDigits spec
      let i ← index digits
      if i > m then .error .formatError
      else
        match formatSpec with
        | [] => do
          let a ← vecGet args i
          return (Str.str a, auto)
        | c :: _ =>
          if c = ⟨b!":"⟩ then do
            let parsed ← makeSpecifier formatSpec
            let a ← vecGet args auto
            let r ← process a parsed
            return (Str.str r, auto)
          else return ([], auto)) := by
  simp only [next_snd, spanDigits_same, bind, Except.bind]
  cases spanDigits spec with
  | error e => rfl
  | ok p =>
    simp only
    cases index p.1 with
    | error e => rfl
    | ok i =>
      simp only
      by_cases hm : i > m
      · simp only [if_pos hm]
      · simp only [if_neg hm, next_snd]
        exact indexed_same args auto i p.2

/-- Both branches of a placeholder. -/
theorem either_same (b : Bool) (x y : Work (List UInt8 × Nat)) (x' y' : Res (List UInt8 × Nat)) (hx : x.2 = x') (hy : y.2 = y') :
    (if b = true then x else y).2 = if b = true then x' else y' := by
  cases b
  · exact hy
  · exact hx

theorem placeholder_same (args : List Str) (auto : Nat) (spec : Str) :
    (placeholderC args auto spec).2 = placeholder args auto spec := by
  unfold placeholderC placeholder
  rw [next_snd]
  refine congrArg (startsWithDigit spec >>= ·) (funext fun b => ?_)
  refine either_same b _ _ _ _ (digits_same argIndex (wsub args.length 1) args auto spec) ?_
  by_cases h1 : spec.head? = some ⟨b!":"⟩
  · rw [if_pos h1, if_pos h1]
    exact formatted_pair args 0 auto spec
  · rw [if_neg h1, if_neg h1]
    by_cases h2 : args.length = 1
    · rw [if_pos h2, if_pos h2]
      exact got_pair args 0 auto
    · rw [if_neg h2, if_neg h2]
      by_cases h3 : args.length > 1
      · rw [if_pos h3, if_pos h3]
        exact got_pair args auto (auto + 1)
      · rw [if_neg h3, if_neg h3]

theorem loop_same (args : List Str) : ∀ (n : Nat) (s : Str) (auto : Nat), (loopC args n s auto).result = loop args n s auto
  | 0, _, _ => by rw [loopC, loop]
  | n + 1, [], _ => by rw [loopC, loop]
  | n + 1, c :: rest, auto => by
    rw [loopC, loop]
    split
    · split
      · rw [Loop.after, loop_same]
        cases loop args n (rest.drop 1) auto <;> rfl
      · simp only [FindCost.searchC_search]
        split
        · rfl
        · cases hs : Str.substring (c :: rest) 1 (Str.search (c :: rest) c!"}" - 1) with
          | error e => rfl
          | ok spec =>
            simp only [bind, Except.bind]
            rw [← placeholder_same]
            rcases placeholderC args auto spec with ⟨m, e | ⟨bytes, auto'⟩⟩
            · rfl
            · simp only [Loop.after, loop_same]
              cases loop args n _ auto' <;> rfl
    · split
      · split
        · rw [Loop.after, loop_same]
          cases loop args n (rest.drop 1) auto <;> rfl
        · rfl
      · rw [Loop.after, loop_same]
        cases loop args n rest auto <;> rfl

/-! ### Bounds -/

theorem len_str {s : Str} (h : Shapes s) : s.length ≤ (Str.str s).length := by
  induction s with
  | nil => exact Nat.zero_le _
  | cons c s ih =>
    have := ih (h.sub (by simp +contextual))
    have hc : 0 < c.printed.length := by
      have e := h c (by simp)
      have : c.printed = c.data := Caitlyn.Shape.printed e
      rw [this]
      exact Caitlyn.Shape.length_pos e
    rw [printed_char, List.length_append, List.length_cons]
    omega

theorem spanDigits_le : ∀ s : Str, (spanDigitsC s).1 ≤ s.length + 1
  | [] => Nat.le_refl _
  | c :: s => by
    rw [spanDigitsC, List.length_cons]
    have := spanDigits_le s
    refine Nat.le_trans (next_le (A := 1) (B := s.length + 1) (Nat.le_refl _) fun cp _ => ?_) (by omega)
    split
    · exact Nat.le_trans (next_le (B := 0) this fun _ _ => Nat.le_refl _) (by omega)
    · exact Nat.zero_le _

theorem spanDigits_length : ∀ (s : Str) (p : Str × Str), spanDigits s = .ok p → p.1.length + p.2.length = s.length
  | [], p, h => by cases h; rfl
  | c :: s, p, h => by
    rw [spanDigits] at h
    cases hc : c.getCodePoint with
    | error e => rw [hc] at h; cases h
    | ok cp =>
      rw [hc] at h
      simp only [bind, Except.bind] at h
      split at h
      · cases hs : spanDigits s with
        | error e => rw [hs] at h; cases h
        | ok q =>
          rw [hs] at h; cases h
          have := spanDigits_length s q hs
          simp only [List.length_cons]; omega
      · cases h; simp

theorem parseWidth_le (spec : Specifier) (s : Str) : (parseWidthC spec s).1 ≤ 5 * s.length + 2 := by
  unfold parseWidthC
  refine Nat.le_trans (next_le (A := 1) (B := 5 * s.length + 1) (Nat.le_refl _) fun b _ => ?_) (by omega)
  split
  · refine Nat.le_trans (next_le (A := reading s.length) (B := s.length + 1) (Nat.le_refl _) fun w _ => ?_)
      (by unfold reading cutting; omega)
    exact Nat.le_trans (next_le (B := 0) (spanDigits_le s) fun _ _ => Nat.le_refl _) (by omega)
  · exact Nat.zero_le _

theorem parseWidth_length (spec : Specifier) (s : Str) (p : Specifier × Str) (h : parseWidth spec s = .ok p) :
    p.2.length ≤ s.length := by
  unfold parseWidth at h
  cases hb : startsWithDigit s with
  | error e => rw [hb] at h; cases h
  | ok b =>
    rw [hb] at h
    cases b
    · cases h; exact Nat.le_refl _
    · simp only [bind, Except.bind, if_true] at h
      cases hw : StdNum.stoul 10 (Str.str s) with
      | error e => rw [hw] at h; cases h
      | ok w =>
        rw [hw] at h
        cases hs : spanDigits s with
        | error e => rw [hs] at h; cases h
        | ok q =>
          rw [hs] at h; cases h
          have := spanDigits_length s q hs
          simp only; omega

theorem parsePrecision_le (spec : Specifier) (s : Str) : (parsePrecisionC spec s).1 ≤ 5 * s.length + 3 := by
  unfold parsePrecisionC
  cases s with
  | nil => simp
  | cons c s =>
    simp only [List.length_cons]
    split
    · refine Nat.le_trans (next_le (A := 2) (B := 5 * s.length + 1) (Nat.le_refl _) fun b _ => ?_) (by omega)
      split
      · refine Nat.le_trans (next_le (A := reading s.length) (B := s.length + 1) (Nat.le_refl _) fun w _ => ?_)
          (by unfold reading cutting; omega)
        exact Nat.le_trans (next_le (B := 0) (spanDigits_le s) fun _ _ => Nat.le_refl _) (by omega)
      · exact Nat.zero_le _
    · simp only; omega

theorem parseAlignment_length (spec : Specifier) (s : Str) (p : Specifier × Str) (h : parseAlignment spec s = .ok p) :
    p.2.length ≤ s.length := by
  cases s with
  | nil => cases h
  | cons c s =>
    cases s with
    | nil =>
      simp only [parseAlignment] at h
      cases ha : alignOf c <;> rw [ha] at h <;> cases h <;> simp
    | cons d s =>
      simp only [parseAlignment] at h
      cases ha : alignOf d <;> rw [ha] at h
      · cases hb : alignOf c <;> rw [hb] at h <;> cases h <;> simp
      · cases h; simp only [List.length_cons]; omega

theorem makeSpecifier_le (s : Str) : (makeSpecifierC s).1 ≤ 10 * s.length + 5 := by
  unfold makeSpecifierC
  cases s with
  | nil => simp
  | cons c s =>
    simp only [List.length_cons]
    split
    · simp only; omega
    · refine Nat.le_trans (next_le (A := 7) (B := 10 * s.length + 8) (Nat.le_refl _) fun p hp => ?_) (by omega)
      have h1 := parseAlignment_length _ _ _ hp
      refine Nat.le_trans (next_le (A := 5 * s.length + 2) (B := 5 * s.length + 6)
        (Nat.le_trans (parseWidth_le _ _) (by omega)) fun q hq => ?_) (by omega)
      rw [parseWidth_same] at hq
      have h2 := parseWidth_length _ _ _ hq
      exact Nat.le_trans (next_le (A := 5 * s.length + 3) (B := 3)
        (Nat.le_trans (parsePrecision_le _ _) (by omega)) fun _ _ => Nat.le_refl _) (by omega)

theorem specifier_fill (s : Str) (hs : Shapes s) (spec : Specifier) (h : makeSpecifier s = .ok spec) : Shape spec.fill.data := by
  by_cases h2 : 2 ≤ s.length
  · have := safe_makeSpecifier s hs h2
    rw [h] at this
    exact this
  · cases s with
    | nil => cases h
    | cons c s =>
      cases s with
      | nil =>
        simp only [makeSpecifier] at h
        split at h
        · cases h
        · cases h
      | cons d s => simp only [List.length_cons] at h2; omega

theorem processAlignment_le (v : Str) (hv : Shapes v) (spec : Specifier) (hf : Shape spec.fill.data) :
    ∃ r, processAlignment v spec = .ok r ∧ Shapes r ∧ (processAlignmentC v spec).1 ≤ 1 + r.length ∧ v.length ≤ r.length ∧
      (Str.str v).length ≤ (Str.str r).length := by
  refine ⟨pad spec.fill spec.align spec.width v, processAlignment_pad v spec, pad_shape _ _ _ _ hf hv, ?_, ?_, ?_⟩
  · unfold processAlignmentC pad
    split
    · simp only; omega
    · cases spec.align with
      | left => simp only [List.length_append, List.length_replicate]; omega
      | right => simp only [List.length_append, List.length_replicate]; omega
      | center =>
        simp only [List.length_append, List.length_replicate]
        refine Nat.le_trans (next_le (B := (spec.width - v.length) - (spec.width - v.length) / 2) (Nat.le_refl _)
          fun _ _ => Nat.le_refl _) ?_
        omega
  · unfold pad
    cases spec.align <;> simp only [List.length_append] <;> omega
  · unfold pad
    cases spec.align <;> simp only [Str.str_append, List.length_append] <;> omega

theorem scan_one (p : Chr) : ∀ s : Str, (FindCost.scan p [] s).1 ≤ s.length ∧
    (FindCost.scan p [] s).1 ≤ (FindCost.scan p [] s).2 + 1
  | [] => by simp [FindCost.scan]
  | c :: s => by
    have := scan_one p s
    rw [FindCost.scan]
    split
    · simp [FindCost.along]
    · simp only [List.length_cons]; omega

theorem fractionDigits_le : ∀ (s : Str) (n : Nat), Shapes s → ∃ d, fractionDigits s n = .ok d ∧ Shapes d ∧ d.length ≤ n ∧
    (fractionDigitsC s n).1 ≤ d.length + 1
  | [], n, _ => ⟨[], by rw [fractionDigits], Shapes.nil, Nat.zero_le _, by rw [fractionDigitsC]; simp⟩
  | c :: s, n, h => by
    obtain ⟨cp, hc, -⟩ := anyDigit_code (h c (by simp))
    rw [fractionDigitsC.eq_def, fractionDigits.eq_def]
    simp only [hc, next, bind, Except.bind]
    split
    · cases n with
      | zero => exact ⟨[], rfl, Shapes.nil, Nat.le_refl _, by simp⟩
      | succ n =>
        obtain ⟨d, h1, h2, h3, h4⟩ := fractionDigits_le s n (h.sub (by simp +contextual))
        have h5 := fractionDigits_same s n
        rw [h1] at h5
        refine ⟨c :: d, by simp only [h1]; rfl, Shapes.cons (h c (by simp)) h2, by simp only [List.length_cons]; omega, ?_⟩
        simp only [h5, List.length_cons]
        omega
    · exact ⟨[], rfl, Shapes.nil, Nat.zero_le _, by simp⟩

theorem floatingText_le (v : Str) (hv : Shapes v) (spec : Specifier) :
    ∃ out, floatingText v spec = .ok out ∧ (floatingTextC v spec).1 ≤ 6 * out.length + 2 := by
  have hfind : ∃ n d, findC v c!"." 0 = (n, .ok d) ∧ n ≤ v.length ∧ (d ≠ npos → n ≤ d + 1 ∧ d < v.length) := by
    unfold findC FindCost.findC
    rw [if_neg (by omega)]
    refine ⟨_, _, rfl, ?_, ?_⟩
    · exact (scan_one _ v).1
    · simp only [List.drop_zero, Nat.zero_add]
      split
      · rename_i hne
        intro _
        refine ⟨(scan_one _ v).2, ?_⟩
        rw [FindCost.searchC_search] at hne ⊢
        by_cases ho : Occurs c!"." v
        · have := Str.search_lt v c!"." (by simp) ho
          omega
        · exact absurd (Str.search_none v _ ho) hne
      · intro h; exact absurd rfl h
  obtain ⟨n, d, hf, hn, hd⟩ := hfind
  have hsame := floatingText_same v spec
  unfold floatingText at hsame ⊢
  have hfs := find_same v c!"." 0
  rw [hf] at hfs
  rw [← hfs]
  unfold floatingTextC
  rw [hf]
  simp only [next, bind, Except.bind]
  have hlv := len_str hv
  by_cases hdn : d ≠ npos
  · obtain ⟨h1, h2⟩ := hd hdn
    have hsub : Str.substring v 0 (d + 1) = .ok (v.take (d + 1)) := by
      unfold Str.substring
      rw [if_neg (by omega), List.drop_zero, Nat.min_eq_left (by omega)]
    have hhead : Shapes (v.take (d + 1)) := hv.sub fun c hc => List.mem_of_mem_take hc
    have hl := len_str hhead
    rw [List.length_take, Nat.min_eq_left (by omega)] at hl
    simp only [if_pos hdn, hsub]
    by_cases hp : spec.precision > 0
    · obtain ⟨ds, g1, g2, g3, g4⟩ := fractionDigits_le (v.drop (d + 1)) spec.precision.toNat
        (hv.sub fun c hc => List.mem_of_mem_drop hc)
      have g5 := fractionDigits_same (v.drop (d + 1)) spec.precision.toNat
      rw [g1] at g5
      have g6 := len_str g2
      simp only [if_pos hp, g1, g5]
      refine ⟨_, rfl, ?_⟩
      simp only [List.length_append, List.length_replicate, cutting]
      omega
    · simp only [if_neg hp]
      refine ⟨_, rfl, ?_⟩
      simp only [cutting]
      omega
  · simp only [if_neg hdn]
    by_cases hp : spec.precision > 0
    · simp only [if_pos hp]
      refine ⟨_, rfl, ?_⟩
      simp only [List.length_append, List.length_replicate]
      omega
    · simp only [if_neg hp]
      refine ⟨_, rfl, ?_⟩
      omega

theorem process_le (v : Str) (hv : Shapes v) (spec : Specifier) (hf : Shape spec.fill.data) :
    ∃ r, process v spec = .ok r ∧ Shapes r ∧ (processC v spec).1 ≤ 10 * (Str.str r).length + 3 := by
  unfold process processC
  cases spec.type with
  | integral =>
    obtain ⟨r, h1, h2, h3, h4, h5⟩ := processAlignment_le v hv spec hf
    have := len_str h2
    refine ⟨r, h1, h2, ?_⟩
    simp only [next]
    omega
  | string =>
    obtain ⟨r, h1, h2, h3, h4, h5⟩ := processAlignment_le v hv spec hf
    have := len_str h2
    refine ⟨r, h1, h2, ?_⟩
    simp only [next]
    omega
  | floating =>
    simp only [processFloating, processFloatingC]
    obtain ⟨out, g1, g2⟩ := floatingText_le v hv spec
    have g3 := safe_floatingText v hv spec
    rw [g1] at g3
    obtain ⟨t, ht, rfl⟩ := g3
    have g4 := floatingText_same v spec
    rw [g1] at g4
    obtain ⟨r, h1, h2, h3, h4, h5⟩ := processAlignment_le t ht spec hf
    have := len_str h2
    refine ⟨r, ?_, h2, ?_⟩
    · rw [g1]
      simp only [bind, Except.bind, Str.ofStdString_str t ht, h1]
    · simp only [next, g4, Str.ofStdString_str t ht]
      omega

theorem vecGet_mem {args : List Str} {i : Nat} {a : Str} (h : vecGet args i = .ok a) : a ∈ args := by
  unfold vecGet at h
  cases hi : args[i]? with
  | none => rw [hi] at h; cases h
  | some b => rw [hi] at h; cases h; exact List.mem_of_getElem? hi

/-- The bound for one placeholder, with the text if there is no error. -/
def Held (x : Work (List UInt8)) (n : Nat) : Prop :=
  (∃ e, x.2 = .error e ∧ x.1 ≤ n) ∨ ∃ bs, x.2 = .ok bs ∧ TextBytes bs ∧ x.1 ≤ n + 11 * bs.length

theorem formatted_le (args : List Str) (ha : ∀ a ∈ args, Shapes a) (i : Nat) (t : Str) (ht : Shapes t) :
    Held (formattedC args i t) (10 * t.length + 9) := by
  have h0 := makeSpecifier_le t
  have h1 := makeSpecifier_same t
  unfold formattedC Held next
  cases hm : makeSpecifier t with
  | error e =>
    rw [hm] at h1
    simp only [h1]
    exact .inl ⟨e, rfl, by omega⟩
  | ok spec =>
    rw [hm] at h1
    simp only [h1]
    cases hg : vecGet args i with
    | error e => exact .inl ⟨e, rfl, by simp only; omega⟩
    | ok a =>
      obtain ⟨r, g1, g2, g3⟩ := process_le a (ha a (vecGet_mem hg)) spec (specifier_fill t ht spec hm)
      have g4 := process_same a spec
      rw [g1] at g4
      have g5 := len_str g2
      simp only [g4]
      exact .inr ⟨Str.str r, rfl, TextBytes.str g2, by omega⟩

/-- The same for a placeholder. -/
def HeldP (x : Work (List UInt8 × Nat)) (n : Nat) : Prop :=
  (∃ e, x.2 = .error e ∧ x.1 ≤ n) ∨ ∃ bs k, x.2 = .ok (bs, k) ∧ TextBytes bs ∧ x.1 ≤ n + 11 * bs.length

theorem heldP_get (args : List Str) (ha : ∀ a ∈ args, Shapes a) (i k n : Nat) (hn : 1 ≤ n) :
    HeldP (next (1, vecGet args i) fun a => (a.length, .ok (Str.str a, k))) n := by
  unfold next HeldP
  cases h : vecGet args i with
  | error e => exact .inl ⟨e, rfl, hn⟩
  | ok a =>
    have := len_str (ha a (vecGet_mem h))
    exact .inr ⟨_, _, rfl, TextBytes.str (ha a (vecGet_mem h)), by simp only; omega⟩

theorem heldP_formatted {x : Work (List UInt8)} {n : Nat} (h : Held x n) (k : Nat) :
    HeldP (next x fun r => (1, .ok (r, k))) (n + 1) := by
  unfold next HeldP
  rcases h with ⟨e, h1, h2⟩ | ⟨bs, h1, h2, h3⟩
  · rw [h1]; exact .inl ⟨e, rfl, by simp only; omega⟩
  · rw [h1]; exact .inr ⟨bs, k, rfl, h2, by simp only; omega⟩

theorem heldP_next {α : Type} {x : Work α} {f : α → Work (List UInt8 × Nat)} {A B : Nat} (hx : x.1 ≤ A)
    (hf : ∀ a, x.2 = .ok a → HeldP (f a) B) : HeldP (next x f) (A + B) := by
  unfold next
  cases h : x.2 with
  | error e => exact .inl ⟨e, rfl, by simp only; omega⟩
  | ok a =>
    rcases hf a h with ⟨e, h1, h2⟩ | ⟨bs, k, h1, h2, h3⟩
    · exact .inl ⟨e, h1, by simp only; omega⟩
    · exact .inr ⟨bs, k, h1, h2, by simp only; omega⟩

theorem HeldP.mono {x : Work (List UInt8 × Nat)} {n m : Nat} (h : HeldP x n) (hm : n ≤ m) : HeldP x m := by
  rcases h with ⟨e, h1, h2⟩ | ⟨bs, k, h1, h2, h3⟩
  · exact .inl ⟨e, h1, by omega⟩
  · exact .inr ⟨bs, k, h1, h2, by omega⟩

theorem placeholder_le (args : List Str) (ha : ∀ a ∈ args, Shapes a) (auto : Nat) (spec : Str) (hs : Shapes spec) :
    HeldP (placeholderC args auto spec) (20 * spec.length + 12) := by
  unfold placeholderC
  refine (heldP_next (A := 1) (B := 20 * spec.length + 11) (Nat.le_refl _) fun b _ => ?_).mono (by omega)
  split
  · refine (heldP_next (A := spec.length + 1) (B := 16 * spec.length + 10) (spanDigits_le spec) fun p hp => ?_).mono (by omega)
    rw [spanDigits_same] at hp
    have hl := spanDigits_length spec p hp
    have hmem : Shapes p.2 := by
      have := safe_spanDigits spec hs
      rw [hp] at this
      have e : spec = p.1 ++ p.2 := this
      exact hs.sub fun c hc => by rw [e]; exact List.mem_append_right _ hc
    refine (heldP_next (A := 4 * p.1.length) (B := 12 * p.2.length + 10) (by simp only [reading, cutting]; omega) fun i _ => ?_).mono
      (by omega)
    split
    · exact .inl ⟨_, rfl, by simp only; omega⟩
    · refine (heldP_next (A := 2 * p.2.length) (B := 10 * p.2.length + 10) (Nat.le_refl _) fun f hf => ?_).mono (by omega)
      simp only [Except.ok.injEq] at hf
      subst hf
      cases hq : p.2 with
      | nil => rw [indexedC]; exact heldP_get args ha i auto _ (by omega)
      | cons c t =>
        rw [indexedC]
        split
        · rw [hq] at hmem
          exact (heldP_formatted (formatted_le args ha auto (c :: t) hmem) auto).mono (by omega)
        · exact .inr ⟨[], auto, rfl, ⟨[], Shapes.nil, rfl⟩, by simp only; omega⟩
  · split
    · exact (heldP_formatted (formatted_le args ha 0 spec hs) auto).mono (by omega)
    · split
      · exact heldP_get args ha 0 auto _ (by omega)
      · split
        · exact heldP_get args ha auto (auto + 1) _ (by omega)
        · exact .inl ⟨_, rfl, by simp only; omega⟩

/-- The bound for the loop. -/
def HeldL (l : Loop) (n : Nat) : Prop :=
  l.steps ≤ 23 * (n + l.written + 1) ∧ ∀ out, l.result = .ok out → TextBytes out ∧ out.length = l.written

theorem heldL_after {l : Loop} {n m : Nat} (h : HeldL l n) (steps : Nat) (bytes : List UInt8) (hb : TextBytes bytes)
    (hs : steps ≤ 22 * bytes.length + 23 * m) : HeldL (l.after steps bytes) (n + m) := by
  obtain ⟨h1, h2⟩ := h
  refine ⟨by simp only [Loop.after]; omega, fun out ho => ?_⟩
  simp only [Loop.after] at ho ⊢
  cases hr : l.result with
  | error e => rw [hr] at ho; cases ho
  | ok o =>
    rw [hr] at ho
    cases ho
    obtain ⟨g1, g2⟩ := h2 o hr
    exact ⟨hb.append g1, by simp only [List.length_append, g2]⟩

theorem HeldL.mono {l : Loop} {n m : Nat} (h : HeldL l n) (hm : n ≤ m) : HeldL l m := ⟨by have := h.1; omega, h.2⟩

theorem loop_le (args : List Str) (ha : ∀ a ∈ args, Shapes a) : ∀ (n : Nat) (s : Str) (auto : Nat), Shapes s →
    HeldL (loopC args n s auto) s.length
  | 0, _, _, _ => by rw [loopC]; exact ⟨Nat.zero_le _, nofun⟩
  | n + 1, [], _, _ => by
    rw [loopC]
    exact ⟨by simp, fun out h => by cases h; exact ⟨⟨[], Shapes.nil, rfl⟩, rfl⟩⟩
  | n + 1, c :: rest, auto, hs => by
    have hrest : Shapes rest := hs.sub (by simp +contextual)
    have hdrop : ∀ k, Shapes ((c :: rest).drop k) := fun k => hs.sub fun _ h => List.mem_of_mem_drop h
    have brace : ∀ b : UInt8, 0x01 ≤ b → b ≤ 0x7F → TextBytes [b] := fun b h1 h2 =>
      ⟨[⟨[b]⟩], Shapes.cons (.one b h1 h2) .nil, by
        have : Chr.printed ⟨[b]⟩ = [b] := Caitlyn.Shape.printed (Shape.one b h1 h2)
        simp [Str.str, this]⟩
    rw [loopC]
    split
    · split
      · refine (heldL_after (m := 1) (loop_le args ha n (rest.drop 1) auto (hdrop 2)) 4 b!"{" (brace _ (by decide) (by decide))
          (by simp only [List.length_cons, List.length_nil]; omega)).mono ?_
        simp only [List.length_drop, List.length_cons]; omega
      · obtain ⟨k1, k2⟩ := scan_one ⟨b!"}"⟩ (c :: rest)
        change (FindCost.searchC (c :: rest) c!"}").1 ≤ _ at k1
        change (FindCost.searchC (c :: rest) c!"}").1 ≤ (FindCost.searchC (c :: rest) c!"}").2 + 1 at k2
        have hle : (FindCost.searchC (c :: rest) c!"}").2 ≤ (c :: rest).length := by
          rw [FindCost.searchC_search]
          by_cases ho : Occurs c!"}" (c :: rest)
          · have := Str.search_lt (c :: rest) c!"}" (by simp) ho; omega
          · rw [Str.search_none _ _ ho]
        simp only
        generalize FindCost.searchC (c :: rest) c!"}" = k at k1 k2 hle ⊢
        simp only [List.length_cons] at k1 k2 hle ⊢
        split
        · exact ⟨by simp only; omega, nofun⟩
        · rename_i hk
          have hsub : Str.substring (c :: rest) 1 (k.2 - 1) = .ok (rest.take (k.2 - 1)) := by
            unfold Str.substring
            rw [if_neg (by simp), List.drop_succ_cons, List.drop_zero, Nat.min_eq_left (by simp only [List.length_cons]; omega)]
          rw [hsub]
          simp only
          have hsp : Shapes (rest.take (k.2 - 1)) := hrest.sub fun _ h => List.mem_of_mem_take h
          have hl : (rest.take (k.2 - 1)).length = k.2 - 1 := by rw [List.length_take]; omega
          have hp := placeholder_le args ha auto _ hsp
          rw [hl] at hp
          rw [hl]
          rcases hx : placeholderC args auto (rest.take (k.2 - 1)) with ⟨m, r⟩
          rw [hx] at hp
          rcases hp with ⟨e, h1, h2⟩ | ⟨bs, a', h1, h2, h3⟩
          · simp only at h1 h2
            subst h1
            exact ⟨by simp only [cutting]; omega, nofun⟩
          · simp only at h1 h3
            subst h1
            simp only
            refine (heldL_after (m := k.2 + 1) (loop_le args ha n ((c :: rest).drop (k.2 + 1)) a' (hdrop _)) _ bs h2 ?_).mono ?_
            · simp only [cutting]; omega
            · simp only [List.length_drop, List.length_cons]; omega
    · split
      · split
        · refine (heldL_after (m := 1) (loop_le args ha n (rest.drop 1) auto (hdrop 2)) 4 b!"}" (brace _ (by decide) (by decide))
            (by simp only [List.length_cons, List.length_nil]; omega)).mono ?_
          simp only [List.length_drop, List.length_cons]; omega
        · exact ⟨by simp only; omega, nofun⟩
      · refine heldL_after (m := 1) (loop_le args ha n rest auto hrest) 4 c.printed ?_ (by omega)
        exact ⟨[c], Shapes.cons (hs c (by simp)) .nil, by simp [Str.str]⟩

end Caitlyn.FormatCost
