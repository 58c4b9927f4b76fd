import Verif.Spec.Statics

/-! # Lemmas for C166 -/

namespace Caitlyn.Statics
open Caitlyn Spec.Exit
variable {F : Type}

/-- The object is made if it does not exist. -/
def construct (s : St) (t : Table) : St := if s.status t = .fresh then ⟨.table t :: s.stack, St.set s.status t .alive⟩ else s

theorem touch_eq (t : Table) (s : St) : touch t s = if s.status t = .dead then .error .ub else .ok (construct s t) := by
  unfold touch construct
  cases s.status t <;> simp

theorem construct_alive (s : St) (t : Table) (h : s.status t ≠ .dead) : (construct s t).status t = .alive := by
  unfold construct
  cases hs : s.status t
  · simp [St.set]
  · simp [hs]
  · exact absurd hs h

theorem touch_alive (t : Table) (s : St) (h : s.status t = .alive) : touch t s = .ok s := by
  unfold touch
  rw [h]

theorem mapText_alive (t : Table) (f : Nat → Nat) (g : Chr → Res Chr)
    (hg : ∀ c, g c = do let cp ← c.getCodePoint; return Chr.ofCodePoint (f cp)) :
    (text : Str) → (s : St) → s.status t = .alive → mapText t f text s = .ok (text.mapM g, s)
  | [], s, _ => rfl
  | c :: cs, s, h => by
    rw [mapText, List.mapM_cons, hg]
    cases c.getCodePoint with
    | error e => rfl
    | ok cp =>
      simp only [touch_alive t s h, mapText_alive t f g hg cs s h, bind, Except.bind, pure, Except.pure]
      cases cs.mapM g <;> rfl

theorem first_alive : (text : Str) → (i : Nat) → (s : St) → s.status .space = .alive →
    first text i s = .ok (StrUtil.firstNonSpace text i, s)
  | [], _, _, _ => rfl
  | c :: cs, i, s, h => by
    rw [first, StrUtil.firstNonSpace]
    cases c.getCodePoint with
    | error e => rfl
    | ok cp =>
      simp only [touch_alive _ s h, bind, Except.bind]
      split
      · exact first_alive cs (i + 1) s h
      · rfl

theorem last_alive (text : Str) : (i : Nat) → (s : St) → s.status .space = .alive →
    last text i s = .ok (StrUtil.lastNonSpace text i, s)
  | 0, _, _ => rfl
  | i + 1, s, h => by
    rw [last, StrUtil.lastNonSpace]
    cases Str.index text (i + 1) with
    | error e => rfl
    | ok c =>
      simp only [bind, Except.bind]
      cases c.getCodePoint with
      | error e => rfl
      | ok cp =>
        simp only [touch_alive _ s h]
        split
        · exact last_alive text i s h
        · rfl

theorem mapText_eq (t : Table) (f : Nat → Nat) (g : Chr → Res Chr)
    (hg : ∀ c, g c = do let cp ← c.getCodePoint; return Chr.ofCodePoint (f cp)) (text : Str) (s : St) :
    mapText t f text s = if readable text = true ∧ s.status t = .dead then .error .ub
      else .ok (text.mapM g, if readable text = true then construct s t else s) := by
  cases text with
  | nil => simp [mapText, readable]; rfl
  | cons c cs =>
    rw [mapText, List.mapM_cons, hg, readable]
    cases c.getCodePoint with
    | error e => simp; rfl
    | ok cp =>
      simp only [touch_eq, true_and, if_true]
      by_cases h : s.status t = .dead
      · rw [if_pos h, if_pos h]; rfl
      · rw [if_neg h, if_neg h]
        simp only [mapText_alive t f g hg cs _ (construct_alive s t h), bind, Except.bind, pure, Except.pure]
        cases cs.mapM g <;> rfl

theorem first_eq (text : Str) (i : Nat) (s : St) :
    first text i s = if readable text = true ∧ s.status .space = .dead then .error .ub
      else .ok (StrUtil.firstNonSpace text i, if readable text = true then construct s .space else s) := by
  cases text with
  | nil => simp [first, readable, StrUtil.firstNonSpace]
  | cons c cs =>
    rw [first, StrUtil.firstNonSpace, readable]
    cases c.getCodePoint with
    | error e => simp; rfl
    | ok cp =>
      simp only [touch_eq, true_and, if_true]
      by_cases h : s.status .space = .dead
      · rw [if_pos h, if_pos h]; rfl
      · rw [if_neg h, if_neg h]
        simp only [bind, Except.bind]
        split
        · exact first_alive cs (i + 1) _ (construct_alive s _ h)
        · rfl

theorem last_eq (c : Chr) (text : Str) (s : St) :
    last (c :: text) text.length s = if readable text.reverse = true ∧ s.status .space = .dead then .error .ub
      else .ok (StrUtil.lastNonSpace (c :: text) text.length, if readable text.reverse = true then construct s .space else s) := by
  rcases List.eq_nil_or_concat text with rfl | ⟨l, a, rfl⟩
  · simp [last, readable, StrUtil.lastNonSpace]
  · have hi : Str.index (c :: (l ++ [a])) (l.length + 1) = .ok a := by simp [Str.index, vecGet]
    simp only [List.concat_eq_append, List.length_append, List.length_cons, List.length_nil, Nat.zero_add, List.reverse_append,
      List.reverse_cons, List.reverse_nil, List.nil_append, List.cons_append, readable]
    rw [last, StrUtil.lastNonSpace, hi]
    simp only [bind, Except.bind]
    cases a.getCodePoint with
    | error e => simp
    | ok cp =>
      simp only [touch_eq, true_and, if_true]
      by_cases h : s.status .space = .dead
      · rw [if_pos h, if_pos h]
      · rw [if_neg h, if_neg h]
        simp only
        split
        · exact last_alive _ _ _ (construct_alive s _ h)
        · rfl

theorem construct_other (s : St) (t u : Table) (h : u ≠ t) : (construct s t).status u = s.status u := by
  unfold construct
  split
  · simp [St.set, h]
  · rfl

/-- A call, exactly. -/
theorem exec_eq (ops : FloatOps F) (c : Call) (s : St) :
    ((∃ t ∈ uses c, s.status t = .dead) → exec ops c s = .error .ub) ∧
    ((∀ t ∈ uses c, s.status t ≠ .dead) → exec ops c s = .ok (answer ops c, (uses c).foldl construct s)) := by
  cases c with
  | isLetter cp =>
    simp only [exec, uses, answer, CharUtil.isLetter]
    by_cases hu : CharUtil.isUppercase cp = true
    · simp only [hu, if_true, Bool.true_or, List.foldl, touch_eq]
      refine ⟨fun ⟨t, ht, h⟩ => ?_, fun h => ?_⟩
      · cases List.mem_singleton.mp ht
        rw [if_pos h]; rfl
      · rw [if_neg (h _ (by simp))]; rfl
    · simp only [Bool.not_eq_true] at hu
      simp only [hu, Bool.false_eq_true, if_false, List.foldl, Bool.false_or, touch_eq]
      refine ⟨fun ⟨t, ht, h⟩ => ?_, fun h => ?_⟩
      · by_cases h1 : s.status .isUpper = .dead
        · rw [if_pos h1]; rfl
        · rw [if_neg h1]
          simp only [bind, Except.bind, construct_other s .isUpper .isLower (by decide)]
          have : t = .isLower := by
            simp only [List.mem_cons, List.not_mem_nil, or_false] at ht
            rcases ht with rfl | rfl
            · exact absurd h h1
            · rfl
          subst this
          rw [if_pos h]
      · rw [if_neg (h _ (by simp))]
        simp only [bind, Except.bind, construct_other s .isUpper .isLower (by decide)]
        rw [if_neg (h _ (by simp))]
  | upperText text =>
    simp only [exec, uses, answer]
    rw [mapText_eq .toUpper CharUtil.toUppercase CharUtil.toUppercaseChr (fun _ => rfl)]
    by_cases hr : readable text = true
    · simp only [hr, if_true, true_and, List.foldl]
      refine ⟨fun ⟨t, ht, h⟩ => ?_, fun h => ?_⟩
      · cases List.mem_singleton.mp ht
        rw [if_pos h]; rfl
      · rw [if_neg (h _ (by simp))]; rfl
    · simp [hr, bind, Except.bind, Str.toUppercase]
  | lowerText text =>
    simp only [exec, uses, answer]
    rw [mapText_eq .toLower CharUtil.toLowercase CharUtil.toLowercaseChr (fun _ => rfl)]
    by_cases hr : readable text = true
    · simp only [hr, if_true, true_and, List.foldl]
      refine ⟨fun ⟨t, ht, h⟩ => ?_, fun h => ?_⟩
      · cases List.mem_singleton.mp ht
        rw [if_pos h]; rfl
      · rw [if_neg (h _ (by simp))]; rfl
    · simp [hr, bind, Except.bind, Str.toLowercase]
  | first text =>
    simp only [exec, uses, answer, first_eq]
    by_cases hr : readable text = true
    · simp only [hr, if_true, true_and, List.foldl]
      refine ⟨fun ⟨t, ht, h⟩ => ?_, fun h => ?_⟩
      · cases List.mem_singleton.mp ht
        rw [if_pos h]; rfl
      · rw [if_neg (h _ (by simp))]; rfl
    · simp [hr, bind, Except.bind, StrUtil.findFirstNonSpace]
  | last c text =>
    simp only [exec, uses, answer, last_eq]
    by_cases hr : readable text.reverse = true
    · simp only [hr, if_true, true_and, List.foldl]
      refine ⟨fun ⟨t, ht, h⟩ => ?_, fun h => ?_⟩
      · cases List.mem_singleton.mp ht
        rw [if_pos h]; rfl
      · rw [if_neg (h _ (by simp))]; simp [bind, Except.bind, StrUtil.findLastNonSpace]
    · simp [hr, bind, Except.bind, StrUtil.findLastNonSpace]
  | parse text =>
    simp only [exec, uses, answer, first_eq]
    by_cases hr : readable text = true
    · simp only [hr, if_true, true_and, List.foldl]
      refine ⟨fun ⟨t, ht, h⟩ => ?_, fun h => ?_⟩
      · cases List.mem_singleton.mp ht
        rw [if_pos h]; rfl
      · rw [if_neg (h _ (by simp))]; rfl
    · simp [hr, bind, Except.bind]
  | _ =>
    simp only [exec, uses, answer, List.foldl, touch_eq]
    refine ⟨fun ⟨t, ht, h⟩ => ?_, fun h => ?_⟩
    · cases List.mem_singleton.mp ht
      rw [if_pos h]; rfl
    · rw [if_neg (h _ (by simp))]; rfl

/-- Some of these calls uses the object. -/
def InEnds (d : List Call) (t : Table) : Prop := ∃ c ∈ d, t ∈ uses c

theorem construct_status (s : St) (t u : Table) :
    (construct s t).status u = if s.status u = .fresh ∧ u = t then .alive else s.status u := by
  unfold construct
  by_cases h : u = t
  · subst h
    by_cases hf : s.status u = .fresh <;> simp [hf, St.set]
  · split <;> simp [St.set, h]

/-- The state after some objects have been made that did not exist. -/
theorem construct_all : (ts : List Table) → (s : St) →
    (∀ u, (ts.foldl construct s).status u = if s.status u = .fresh ∧ u ∈ ts then .alive else s.status u) ∧
    ∃ new, (ts.foldl construct s).stack = new ++ s.stack ∧ (∀ e ∈ new, ∃ t, e = .table t) ∧
      ∀ t, .table t ∈ new ↔ s.status t = .fresh ∧ t ∈ ts
  | [], s => ⟨fun u => by simp, [], rfl, by simp, by simp⟩
  | t :: ts, s => by
    obtain ⟨h1, new, h2, h3, h4⟩ := construct_all ts (construct s t)
    rw [List.foldl_cons]
    refine ⟨fun u => ?_, ?_⟩
    · rw [h1, construct_status]
      by_cases hf : s.status u = .fresh
      · by_cases he : u = t
        · subst he; simp [hf]
        · simp [hf, he]
      · simp [hf]
    · by_cases hf : s.status t = .fresh
      · refine ⟨new ++ [.table t], ?_, ?_, fun u => ?_⟩
        · rw [h2]; simp [construct, hf]
        · intro e he
          rcases List.mem_append.mp he with h | h
          · exact h3 e h
          · exact ⟨t, by simpa using h⟩
        · rw [List.mem_append, h4, construct_status]
          by_cases he : u = t
          · subst he; simp [hf]
          · by_cases hu : s.status u = .fresh <;> simp [he, hu]
      · refine ⟨new, by rw [h2]; simp [construct, hf], h3, fun u => ?_⟩
        rw [h4]
        have : construct s t = s := by simp [construct, hf]
        rw [this]
        constructor
        · exact fun ⟨a, b⟩ => ⟨a, by simp [b]⟩
        · rintro ⟨a, b⟩
          rcases List.mem_cons.mp b with rfl | b
          · exact absurd a hf
          · exact ⟨a, b⟩

theorem construct_dead (ts : List Table) (s : St) (u : Table) : (ts.foldl construct s).status u = .dead ↔ s.status u = .dead := by
  rw [(construct_all ts s).1]
  split
  · next h => simp [h.1]
  · rfl

/-- The calls of a destructor, exactly. -/
theorem execAll_eq (ops : FloatOps F) : (cs : List Call) → (s : St) →
    ((∃ t, InEnds cs t ∧ s.status t = .dead) → execAll ops cs s = .error .ub) ∧
    ((∀ t, InEnds cs t → s.status t ≠ .dead) →
      execAll ops cs s = .ok (cs.map (answer ops), (cs.flatMap uses).foldl construct s))
  | [], s => ⟨fun h => (by obtain ⟨t, ⟨c, hc, _⟩, _⟩ := h; cases hc), fun _ => rfl⟩
  | c :: cs, s => by
    obtain ⟨h1, h2⟩ := exec_eq ops c s
    obtain ⟨g1, g2⟩ := execAll_eq ops cs ((uses c).foldl construct s)
    rw [execAll]
    by_cases h : ∃ t ∈ uses c, s.status t = .dead
    · rw [h1 h]
      refine ⟨fun _ => rfl, fun hn => ?_⟩
      obtain ⟨t, ht, hd⟩ := h
      exact absurd hd (hn t ⟨c, by simp, ht⟩)
    · have h' : ∀ t ∈ uses c, s.status t ≠ .dead := fun t ht hd => h ⟨t, ht, hd⟩
      rw [h2 h']
      simp only [bind, Except.bind]
      refine ⟨fun ⟨t, ⟨e, he, ht⟩, hd⟩ => ?_, fun hn => ?_⟩
      · rcases List.mem_cons.mp he with rfl | he
        · exact absurd hd (h' t ht)
        · rw [g1 ⟨t, ⟨e, he, ht⟩, (construct_dead _ _ _).mpr hd⟩]
      · rw [g2 fun t ⟨e, he, ht⟩ hd => hn t ⟨e, by simp [he], ht⟩ ((construct_dead _ _ _).mp hd)]
        simp [List.foldl_append]

theorem inEnds_flatMap (d : List Call) (t : Table) : t ∈ d.flatMap uses ↔ InEnds d t := by
  simp [InEnds]

/-- The destructors of these objects use what is destroyed: what was destroyed already, what is destroyed before, or what an earlier
destructor had the library make. -/
def Bad (es : List Entry) (σ : Table → Status) : Prop :=
  ∃ newer d older, es = newer ++ .object d :: older ∧ ∃ t, InEnds d t ∧
    (σ t = .dead ∨ .table t ∈ newer ∨ σ t = .fresh ∧ ∃ d', .object d' ∈ newer ∧ InEnds d' t)

theorem bad_table (t : Table) (es : List Entry) (σ : Table → Status) :
    Bad (.table t :: es) σ ↔ Bad es (St.set σ t .dead) := by
  constructor
  · rintro ⟨newer, d, older, he, u, hu, h⟩
    cases newer with
    | nil => cases he
    | cons x newer =>
      injection he with hx he
      subst hx
      refine ⟨newer, d, older, he, u, hu, ?_⟩
      by_cases hut : u = t
      · exact .inl (by simp [St.set, hut])
      · rcases h with h | h | ⟨h, d', hd, hd'⟩
        · exact .inl (by simp [St.set, hut, h])
        · rcases List.mem_cons.mp h with h | h
          · injection h with h; exact absurd h hut
          · exact .inr (.inl h)
        · refine .inr (.inr ⟨by simp [St.set, hut, h], d', ?_, hd'⟩)
          rcases List.mem_cons.mp hd with h | h
          · cases h
          · exact h
  · rintro ⟨newer, d, older, he, u, hu, h⟩
    refine ⟨.table t :: newer, d, older, by rw [he]; rfl, u, hu, ?_⟩
    by_cases hut : u = t
    · exact .inr (.inl (by simp [hut]))
    · rcases h with h | h | ⟨h, d', hd, hd'⟩
      · exact .inl (by simpa [St.set, hut] using h)
      · exact .inr (.inl (by simp [h]))
      · exact .inr (.inr ⟨by simpa [St.set, hut] using h, d', by simp [hd], hd'⟩)

theorem bad_object (d : List Call) (es : List Entry) (σ σ' : Table → Status) (hn : ∀ t, InEnds d t → σ t ≠ .dead)
    (hd : ∀ t, InEnds d t → σ t = .fresh → σ' t = .dead) (hs : ∀ t, ¬ (InEnds d t ∧ σ t = .fresh) → σ' t = σ t) :
    Bad (.object d :: es) σ ↔ Bad es σ' := by
  constructor
  · rintro ⟨newer, e, older, he, u, hu, h⟩
    cases newer with
    | nil =>
      injection he with hx he
      injection hx with hx
      subst hx
      rcases h with h | h | ⟨_, _, h, _⟩
      · exact absurd h (hn u hu)
      · cases h
      · cases h
    | cons x newer =>
      injection he with hx he
      subst hx
      refine ⟨newer, e, older, he, u, hu, ?_⟩
      by_cases hc : InEnds d u ∧ σ u = .fresh
      · exact .inl (hd u hc.1 hc.2)
      · rw [hs u hc]
        rcases h with h | h | ⟨h, d', hm, hd'⟩
        · exact .inl h
        · rcases List.mem_cons.mp h with h | h
          · cases h
          · exact .inr (.inl h)
        · rcases List.mem_cons.mp hm with hm | hm
          · injection hm with hm
            subst hm
            exact absurd ⟨hd', h⟩ hc
          · exact .inr (.inr ⟨h, d', hm, hd'⟩)
  · rintro ⟨newer, e, older, he, u, hu, h⟩
    refine ⟨.object d :: newer, e, older, by rw [he]; rfl, u, hu, ?_⟩
    by_cases hc : InEnds d u ∧ σ u = .fresh
    · exact .inr (.inr ⟨hc.2, d, by simp, hc.1⟩)
    · rw [hs u hc] at h
      rcases h with h | h | ⟨h, d', hm, hd'⟩
      · exact .inl h
      · exact .inr (.inl (by simp [h]))
      · exact .inr (.inr ⟨h, d', by simp [hm], hd'⟩)

/-- What the destructors of these objects return. -/
def endAnswers (ops : FloatOps F) (es : List Entry) : List (Res (Val F)) :=
  es.flatMap fun e => match e with | .table _ => [] | .object d => d.map (answer ops)

theorem kill_eq (new : List Entry) (σ : Table → Status) (t : Table) [Decidable (.table t ∈ new)] :
    kill new σ t = if .table t ∈ new then .dead else σ t := by
  unfold kill
  by_cases h : .table t ∈ new
  · rw [if_pos h, if_pos]
    rw [List.any_eq_true]
    exact ⟨_, h, by simp⟩
  · rw [if_neg h, if_neg]
    rw [List.any_eq_true]
    rintro ⟨e, he, h'⟩
    cases e with
    | table u => simp only [decide_eq_true_eq] at h'; subst h'; exact h he
    | object d => cases h'

/-- The end of the program, exactly. -/
theorem exit_eq (ops : FloatOps F) : (es : List Entry) → (σ : Table → Status) →
    (Bad es σ → exit ops es σ = .error .ub) ∧ (¬ Bad es σ → exit ops es σ = .ok (endAnswers ops es))
  | [], σ => ⟨fun h => (by obtain ⟨n, d, o, h, _⟩ := h; cases n <;> cases h), fun _ => rfl⟩
  | .table t :: es, σ => by
    rw [bad_table, exit]
    exact exit_eq ops es _
  | .object d :: es, σ => by
    rw [exit]
    obtain ⟨h1, h2⟩ := execAll_eq ops d ⟨[], σ⟩
    by_cases h : ∃ t, InEnds d t ∧ σ t = .dead
    · rw [h1 h]
      refine ⟨fun _ => rfl, fun hb => absurd ?_ hb⟩
      obtain ⟨t, ht, hd⟩ := h
      exact ⟨[], d, es, rfl, t, ht, .inl hd⟩
    · have h' : ∀ t, InEnds d t → σ t ≠ .dead := fun t ht hd => h ⟨t, ht, hd⟩
      obtain ⟨hs, new, hk, ht, hm⟩ := construct_all (d.flatMap uses) ⟨[], σ⟩
      rw [h2 h']
      simp only [bind, Except.bind]
      rw [List.append_nil] at hk
      classical
      have hk' : ∀ t, kill ((d.flatMap uses).foldl construct ⟨[], σ⟩).stack ((d.flatMap uses).foldl construct ⟨[], σ⟩).status t =
          if InEnds d t ∧ σ t = .fresh then .dead else σ t := by
        intro t
        have hm' := hm t
        rw [inEnds_flatMap] at hm'
        rw [kill_eq, hk, hs]
        by_cases hf : σ t = .fresh <;> by_cases hi : InEnds d t <;> simp [hf, hi, hm', -List.mem_flatMap, inEnds_flatMap]
      obtain ⟨g1, g2⟩ := exit_eq ops es (kill ((d.flatMap uses).foldl construct ⟨[], σ⟩).stack
        ((d.flatMap uses).foldl construct ⟨[], σ⟩).status)
      have hb := bad_object d es σ (kill ((d.flatMap uses).foldl construct ⟨[], σ⟩).stack
        ((d.flatMap uses).foldl construct ⟨[], σ⟩).status) h' (fun t a b => by rw [hk', if_pos ⟨a, b⟩])
        (fun t a => by rw [hk', if_neg a])
      rw [hb]
      refine ⟨fun hbad => by rw [g1 hbad], fun hbad => ?_⟩
      rw [g2 hbad]
      rfl

/-- How the stack at the end of the steps is cut where the program makes an object. -/
def Cut (s : St) (pre post : List Step) (newer older : List Entry) : Prop :=
  (∀ t, .table t ∈ older ↔ s.status t = .fresh ∧ Called pre t) ∧
  (∀ t, .table t ∈ newer ↔ s.status t = .fresh ∧ ¬ Called pre t ∧ Called post t) ∧
  ∀ d, .object d ∈ newer ↔ .made d ∈ post

theorem called_cons (c : Call) (ps : List Step) (t : Table) : Called (.call c :: ps) t ↔ t ∈ uses c ∨ Called ps t := by
  constructor
  · rintro ⟨e, he, ht⟩
    rcases List.mem_cons.mp he with h | h
    · injection h with h; subst h; exact .inl ht
    · exact .inr ⟨e, h, ht⟩
  · rintro (h | ⟨e, he, ht⟩)
    · exact ⟨c, by simp, h⟩
    · exact ⟨e, by simp [he], ht⟩

theorem called_made (d : List Call) (ps : List Step) (t : Table) : Called (.made d :: ps) t ↔ Called ps t := by
  constructor
  · rintro ⟨e, he, ht⟩
    rcases List.mem_cons.mp he with h | h
    · cases h
    · exact ⟨e, h, ht⟩
  · rintro ⟨e, he, ht⟩
    exact ⟨e, by simp [he], ht⟩

/-- What the calls before the end return. -/
def callAnswers (ops : FloatOps F) (ps : List Step) : List (Res (Val F)) :=
  ps.filterMap fun p => match p with | .call c => some (answer ops c) | .made _ => none

/-- The program until `main` returns, exactly. -/
theorem run_eq (ops : FloatOps F) : (ps : List Step) → (s : St) → (∀ t, s.status t ≠ .dead) →
    ∃ s' ext, run ops ps s = .ok (callAnswers ops ps, s') ∧ s'.stack = ext ++ s.stack ∧
      (∀ t, s'.status t ≠ .dead) ∧ (∀ t, s'.status t = .fresh ↔ s.status t = .fresh ∧ ¬ Called ps t) ∧
      (∀ t, .table t ∈ ext ↔ s.status t = .fresh ∧ Called ps t) ∧ (∀ d, .object d ∈ ext ↔ .made d ∈ ps) ∧
      endAnswers ops ext = (ps.reverse.flatMap fun p => match p with | .call _ => [] | .made ends => ends.map (answer ops)) ∧
      (∀ pre d post, ps = pre ++ .made d :: post → ∃ newer older, ext = newer ++ .object d :: older ∧ Cut s pre post newer older) ∧
      ∀ newer d older, ext = newer ++ .object d :: older → ∃ pre post, ps = pre ++ .made d :: post ∧ Cut s pre post newer older
  | [], s, h => by
    refine ⟨s, [], rfl, rfl, h, fun t => ?_, fun t => ?_, by simp, rfl, fun pre d post e => ?_, fun n d o e => ?_⟩
    · simp [Called]
    · simp [Called]
    · cases pre <;> cases e
    · cases n <;> cases e
  | .call c :: ps, s, h => by
    obtain ⟨hs, new, hk, ht, hm⟩ := construct_all (uses c) s
    obtain ⟨s', ext, h1, h2, h3, h4, h5, h6, h7, h8, h9⟩ := run_eq ops ps ((uses c).foldl construct s)
      (fun t hd => h t ((construct_dead _ _ _).mp hd))
    have hf : ∀ t, ((uses c).foldl construct s).status t = .fresh ↔ s.status t = .fresh ∧ t ∉ uses c := by
      intro t
      rw [hs]
      by_cases a : s.status t = .fresh <;> by_cases b : t ∈ uses c <;> simp [a, b]
    have no : ∀ d, .object d ∉ new := fun d hd => by obtain ⟨t, e⟩ := ht _ hd; cases e
    have cut : ∀ pre post newer older, Cut ((uses c).foldl construct s) pre post newer older →
        Cut s (.call c :: pre) post newer (older ++ new) := by
      rintro pre post newer older ⟨c1, c2, c3⟩
      refine ⟨fun t => ?_, fun t => ?_, c3⟩
      · rw [List.mem_append, c1, hf, hm, called_cons]
        by_cases a : s.status t = .fresh <;> by_cases b : t ∈ uses c <;> simp [a, b]
      · rw [c2, hf, called_cons]
        by_cases a : s.status t = .fresh <;> by_cases b : t ∈ uses c <;> simp [a, b]
    refine ⟨s', ext ++ new, ?_, ?_, h3, fun t => ?_, fun t => ?_, fun d => ?_, ?_, fun pre d post e => ?_, fun n d o e => ?_⟩
    · rw [run, (exec_eq ops c s).2 fun t _ => h t]
      simp only [bind, Except.bind, h1]
      rfl
    · rw [h2, hk, List.append_assoc]
    · rw [h4, hf, called_cons]
      by_cases a : s.status t = .fresh <;> by_cases b : t ∈ uses c <;> simp [a, b]
    · rw [List.mem_append, h5, hf, hm, called_cons]
      by_cases a : s.status t = .fresh <;> by_cases b : t ∈ uses c <;> simp [a, b]
    · rw [List.mem_append, h6]
      simp [no]
    · have : endAnswers ops new = [] := by
        rw [endAnswers, List.flatMap_eq_nil_iff]
        intro e he
        obtain ⟨t, rfl⟩ := ht e he
        rfl
      rw [List.reverse_cons, List.flatMap_append, ← h7]
      unfold endAnswers at this ⊢
      rw [List.flatMap_append, this]
      rfl
    · cases pre with
      | nil => cases e
      | cons x pre =>
        injection e with e1 e2
        subst e1
        obtain ⟨newer, older, he, hc⟩ := h8 pre d post e2
        exact ⟨newer, older ++ new, by rw [he]; simp, cut _ _ _ _ hc⟩
    · rcases List.append_eq_append_iff.mp e with ⟨m, e1, e2⟩ | ⟨m, e1, e2⟩
      · exact absurd (by rw [e2]; simp) (no d)
      · cases m with
        | nil => exact absurd (by rw [← (show _ = new from e2)]; simp) (no d)
        | cons x m =>
          injection e2 with e2 e3
          subst e2
          obtain ⟨pre, post, hp, hc⟩ := h9 n d m e1
          exact ⟨.call c :: pre, post, by rw [hp]; rfl, by rw [e3]; exact cut _ _ _ _ hc⟩
  | .made d0 :: ps, s, h => by
    obtain ⟨s', ext, h1, h2, h3, h4, h5, h6, h7, h8, h9⟩ := run_eq ops ps ⟨.object d0 :: s.stack, s.status⟩ h
    have cut : ∀ pre post newer older, Cut ⟨.object d0 :: s.stack, s.status⟩ pre post newer older →
        Cut s (.made d0 :: pre) post newer (older ++ [.object d0]) := by
      rintro pre post newer older ⟨c1, c2, c3⟩
      refine ⟨fun t => ?_, fun t => ?_, c3⟩
      · rw [List.mem_append, c1, called_made]
        simp
      · rw [c2, called_made]
    have now : Cut s [] ps ext [] := by
      refine ⟨fun t => by simp [Called], fun t => ?_, h6⟩
      rw [h5]
      simp [Called]
    refine ⟨s', ext ++ [.object d0], ?_, ?_, h3, fun t => ?_, fun t => ?_, fun d => ?_, ?_, fun pre d post e => ?_, fun n d o e => ?_⟩
    · rw [run, h1]; rfl
    · rw [h2]; simp
    · rw [h4, called_made]
    · rw [List.mem_append, h5, called_made]
      simp
    · rw [List.mem_append, h6]
      simp [or_comm]
    · rw [List.reverse_cons, List.flatMap_append, ← h7]
      unfold endAnswers
      rw [List.flatMap_append]
      rfl
    · cases pre with
      | nil =>
        injection e with e1 e2
        injection e1 with e1
        subst e1 e2
        exact ⟨ext, [], rfl, now⟩
      | cons x pre =>
        injection e with e1 e2
        subst e1
        obtain ⟨newer, older, he, hc⟩ := h8 pre d post e2
        exact ⟨newer, older ++ [.object d0], by rw [he]; simp, cut _ _ _ _ hc⟩
    · rcases List.append_eq_append_iff.mp e with ⟨m, e1, e2⟩ | ⟨m, e1, e2⟩
      · cases m with
        | nil =>
          injection e2 with e2 e3
          injection e2 with e2
          subst e2 e3
          rw [List.append_nil] at e1
          subst e1
          exact ⟨[], ps, rfl, now⟩
        | cons x m =>
          injection e2 with _ e3
          cases m <;> cases e3
      · cases m with
        | nil =>
          injection e2 with e2 e3
          injection e2 with e2
          rw [List.append_nil] at e1
          subst e2 e3 e1
          exact ⟨[], ps, rfl, now⟩
        | cons x m =>
          injection e2 with e2 e3
          subst e2
          obtain ⟨pre, post, hp, hc⟩ := h9 n d m e1
          exact ⟨.made d0 :: pre, post, by rw [hp]; rfl, by rw [e3]; exact cut _ _ _ _ hc⟩

/-- A whole program, exactly. -/
theorem program_eq (ops : FloatOps F) (ps : List Step) :
    (Safe ps → program ops ps = .ok (answers ops ps)) ∧ (¬ Safe ps → program ops ps = .error .ub) := by
  obtain ⟨s, ext, h1, h2, h3, h4, h5, h6, h7, h8, h9⟩ := run_eq ops ps ⟨[], fun _ => .fresh⟩ (fun _ h => by cases h)
  rw [List.append_nil] at h2
  have hb : Bad ext s.status ↔ ¬ Safe ps := by
    constructor
    · rintro ⟨newer, d, older, he, t, ⟨c, hc, ht⟩, hbad⟩ hsafe
      obtain ⟨pre, post, hp, c1, c2, c3⟩ := h9 newer d older he
      have hs := hsafe pre d post hp c hc t ht
      rcases hbad with hd | hn | ⟨hf, d', hd', hi⟩
      · exact h3 t hd
      · obtain ⟨_, a, b⟩ := (c2 t).mp hn
        rcases hs with hs | ⟨hs, _⟩
        · exact a hs
        · exact hs b
      · have hno := ((h4 t).mp hf).2
        rcases hs with ⟨e, he', ht'⟩ | ⟨_, hs⟩
        · exact hno ⟨e, by rw [hp]; simp [he'], ht'⟩
        · exact hs ⟨d', (c3 d').mp hd', hi⟩
    · intro hsafe
      refine Classical.byContradiction fun hbad => hsafe fun pre d post hp c hc t ht => ?_
      obtain ⟨newer, older, he, c1, c2, c3⟩ := h8 pre d post hp
      by_cases hpre : Called pre t
      · exact .inl hpre
      · by_cases hpost : Called post t
        · exact absurd ⟨newer, d, older, he, t, ⟨c, hc, ht⟩, .inr (.inl ((c2 t).mpr ⟨rfl, hpre, hpost⟩))⟩ hbad
        · refine .inr ⟨hpost, fun ⟨d', hd', hi⟩ => hbad ⟨newer, d, older, he, t, ⟨c, hc, ht⟩, .inr (.inr ⟨?_, d', (c3 d').mpr hd', hi⟩)⟩⟩
          refine (h4 t).mpr ⟨rfl, ?_⟩
          rintro ⟨e, he', ht'⟩
          rw [hp] at he'
          rcases List.mem_append.mp he' with h | h
          · exact hpre ⟨e, h, ht'⟩
          · rcases List.mem_cons.mp h with h | h
            · cases h
            · exact hpost ⟨e, h, ht'⟩
  obtain ⟨g1, g2⟩ := exit_eq ops ext s.status
  unfold program
  simp only [bind, Except.bind, h1, h2]
  refine ⟨fun hs => ?_, fun hs => ?_⟩
  · rw [g2 (fun h => hb.mp h hs), h7]
    rfl
  · rw [g1 (hb.mpr hs)]

end Caitlyn.Statics
