import Verif.Spec.JsonThreads

/-! # Threads that read a JSON value -/

namespace Caitlyn.JsonThreads
open Caitlyn Spec
variable {F : Type} {ops : FloatOps F}

theorem find_some {k : Str} {w : Json F} : ∀ {ms : List (Str × Json F)}, Json.findMember k ms = some w →
    ∃ i k', ms.findIdx? (fun m => m.1 == k) = some i ∧ ms[i]? = some (k', w)
  | [], h => by cases h
  | (k', v) :: ms, h => by
    simp only [Json.findMember] at h
    split at h
    · cases h
      exact ⟨0, k', by simp_all [List.findIdx?_cons], rfl⟩
    · obtain ⟨i, k'', h1, h2⟩ := find_some h
      exact ⟨i + 1, k'', by simp_all [List.findIdx?_cons], by simpa using h2⟩

theorem find_none {k : Str} : ∀ {ms : List (Str × Json F)}, ms.findIdx? (fun m => m.1 == k) = none ↔ Json.findMember k ms = none
  | [] => by simp [Json.findMember]
  | (k', v) :: ms => by
    simp only [Json.findMember, List.findIdx?_cons]
    by_cases c : k' = k
    · simp [c]
    · simp [c, find_none (ms := ms)]

theorem node_append {v n : Json F} {p q : List Nat} (h : node v p = some n) : node v (p ++ q) = node n q := by
  induction p generalizing v with
  | nil => cases h; rfl
  | cons i p ih =>
    cases v with
    | arr js =>
      simp only [node, List.cons_append] at h ⊢
      cases hi : js[i]? with
      | none => rw [hi] at h; cases h
      | some j => rw [hi] at h; exact ih h
    | obj ms =>
      simp only [node, List.cons_append] at h ⊢
      cases hi : ms[i]? with
      | none => rw [hi] at h; cases h
      | some j => rw [hi] at h; exact ih h
    | _ => cases h

/-- The lookup whose type was checked already. -/
inductive Cur where
  | none
  | key (k : Str)
  | index (i : Nat)

def Cur.steps : Cur → List Micro
  | .none => []
  | .key k => [.findKey k]
  | .index i => [.findIndex i]

def Cur.seeks : Cur → List Seek
  | .none => []
  | .key k => [.key k]
  | .index i => [.index i]

def result (ops : FloatOps F) (l : Last) : Option (Json F) → Out F
  | some w => l.of ops w
  | none => .outOfRange

/-- The thread will have the answers `os` in the end. -/
def Will (ops : FloatOps F) (v : Json F) (th : Thread F) (os : List (Out F)) : Prop :=
  (th.todo = [] ∧ th.outs = os) ∨
  ∃ (cur : Cur) (ss : List Seek) (l : Last) (qs : List Query) (n : Json F) (r : Option (Json F)),
    th.todo = cur.steps ++ ss.flatMap Seek.steps ++ .answer l :: qs.flatMap Query.steps ∧
    node v th.pos = some n ∧ lookFor n (cur.seeks ++ ss) = some r ∧ (∀ q ∈ qs, OnlyReads v q) ∧
    os = th.outs ++ result ops l r :: qs.map (answerOf ops v)

theorem Will.queries {v : Json F} (qs : List Query) (outs : List (Out F)) (h : ∀ q ∈ qs, OnlyReads v q) :
    Will ops v ⟨[], qs.flatMap Query.steps, outs⟩ (outs ++ qs.map (answerOf ops v)) := by
  cases qs with
  | nil => exact .inl ⟨rfl, by simp⟩
  | cons q qs =>
    right
    have hq := h q (by simp)
    cases hr : lookFor v q.path with
    | none => rw [OnlyReads, hr] at hq; cases hq
    | some r =>
      refine ⟨.none, q.path, q.last, qs, v, r, by simp [Query.steps, Cur.steps], rfl, hr, fun q hq => h q (by simp [hq]), ?_⟩
      simp only [List.map_cons, answerOf, hr]
      cases r <;> rfl

theorem afterAnswer_steps (ss : List Seek) (l : Last) (r : List Micro) : afterAnswer (ss.flatMap Seek.steps ++ .answer l :: r) = r := by
  induction ss with
  | nil => rfl
  | cons s ss ih => cases s <;> simpa [Seek.steps, afterAnswer] using ih

theorem Will.step {v : Json F} {th : Thread F} {os : List (Out F)} (h : Will ops v th os) {m rest} (hm : th.todo = m :: rest) :
    ∃ th', advance ops v th m rest = .ok (false, v, th') ∧ Will ops v th' os := by
  rcases h with ⟨h, _⟩ | ⟨cur, ss, l, qs, n, r, h1, h2, h3, h4, h5⟩
  · rw [h] at hm; cases hm
  rw [hm] at h1
  cases cur with
  | key k =>
    simp only [Cur.steps, List.cons_append, List.nil_append, List.cons.injEq] at h1
    obtain ⟨rfl, rfl⟩ := h1
    simp only [Cur.seeks, List.cons_append, List.nil_append] at h3
    cases n with
    | obj ms =>
      simp only [lookFor] at h3
      cases hf : Json.findMember k ms with
      | none => rw [hf] at h3; cases h3
      | some w =>
        rw [hf] at h3
        obtain ⟨i, k', g1, g2⟩ := find_some hf
        refine ⟨_, (by simp only [advance, h2, g1]; rfl), ?_⟩
        refine .inr ⟨.none, ss, l, qs, w, r, rfl, ?_, h3, h4, h5⟩
        simp only
        rw [node_append h2]
        simp [node, g2]
    | _ => cases h3
  | index i =>
    simp only [Cur.steps, List.cons_append, List.nil_append, List.cons.injEq] at h1
    obtain ⟨rfl, rfl⟩ := h1
    simp only [Cur.seeks, List.cons_append, List.nil_append] at h3
    cases n with
    | arr js =>
      simp only [lookFor] at h3
      cases hf : js[i]? with
      | none => rw [hf] at h3; cases h3
      | some w =>
        rw [hf] at h3
        have hl : i < js.length := (List.getElem?_eq_some_iff.mp hf).1
        refine ⟨_, (by simp only [advance, h2, if_pos hl]; rfl), ?_⟩
        refine .inr ⟨.none, ss, l, qs, w, r, rfl, ?_, h3, h4, h5⟩
        simp only
        rw [node_append h2]
        simp [node, hf]
    | _ => cases h3
  | none =>
    simp only [Cur.steps, Cur.seeks, List.nil_append] at h1 h3
    cases ss with
    | nil =>
      simp only [List.flatMap_nil, List.nil_append, List.cons.injEq] at h1
      obtain ⟨rfl, rfl⟩ := h1
      simp only [lookFor, Option.some.injEq] at h3
      subst h3
      refine ⟨_, (by simp only [advance, h2]; rfl), ?_⟩
      have := Will.queries (ops := ops) qs (th.outs ++ [l.of ops n]) h4
      rw [h5]
      simpa [result] using this
    | cons s ss =>
      cases s with
      | key k =>
        simp only [List.flatMap_cons, Seek.steps, List.cons_append, List.nil_append, List.cons.injEq] at h1
        obtain ⟨rfl, rfl⟩ := h1
        cases n with
        | obj ms => exact ⟨{ th with todo := .findKey k :: (ss.flatMap Seek.steps ++ .answer l :: qs.flatMap Query.steps) }, by simp only [advance, h2], .inr ⟨.key k, ss, l, qs, _, r, rfl, h2, h3, h4, h5⟩⟩
        | _ => cases h3
      | index i =>
        simp only [List.flatMap_cons, Seek.steps, List.cons_append, List.nil_append, List.cons.injEq] at h1
        obtain ⟨rfl, rfl⟩ := h1
        cases n with
        | arr js => exact ⟨{ th with todo := .findIndex i :: (ss.flatMap Seek.steps ++ .answer l :: qs.flatMap Query.steps) }, by simp only [advance, h2], .inr ⟨.index i, ss, l, qs, _, r, rfl, h2, h3, h4, h5⟩⟩
        | _ => cases h3
      | atKey k =>
        simp only [List.flatMap_cons, Seek.steps, List.cons_append, List.nil_append, List.cons.injEq] at h1
        obtain ⟨rfl, rfl⟩ := h1
        cases n with
        | obj ms =>
          simp only [lookFor] at h3
          cases hf : Json.findMember k ms with
          | none =>
            rw [hf] at h3
            cases h3
            refine ⟨_, (by simp only [advance, h2, find_none.mpr hf]; rfl), ?_⟩
            rw [afterAnswer_steps, h5]
            have := Will.queries (ops := ops) qs (th.outs ++ [.outOfRange]) h4
            simpa [result] using this
          | some w =>
            rw [hf] at h3
            obtain ⟨i, k', g1, g2⟩ := find_some hf
            refine ⟨_, (by simp only [advance, h2, g1]; rfl), ?_⟩
            refine .inr ⟨.none, ss, l, qs, w, r, rfl, ?_, h3, h4, h5⟩
            simp only
            rw [node_append h2]
            simp [node, g2]
        | _ => cases h3
      | atIndex i =>
        simp only [List.flatMap_cons, Seek.steps, List.cons_append, List.nil_append, List.cons.injEq] at h1
        obtain ⟨rfl, rfl⟩ := h1
        cases n with
        | arr js =>
          simp only [lookFor] at h3
          cases hf : js[i]? with
          | none =>
            rw [hf] at h3
            cases h3
            have hl : ¬ i < js.length := by simpa using hf
            refine ⟨_, (by simp only [advance, h2, if_neg hl]; rfl), ?_⟩
            rw [afterAnswer_steps, h5]
            have := Will.queries (ops := ops) qs (th.outs ++ [.outOfRange]) h4
            simpa [result] using this
          | some w =>
            rw [hf] at h3
            have hl : i < js.length := (List.getElem?_eq_some_iff.mp hf).1
            refine ⟨_, (by simp only [advance, h2, if_pos hl]; rfl), ?_⟩
            refine .inr ⟨.none, ss, l, qs, w, r, rfl, ?_, h3, h4, h5⟩
            simp only
            rw [node_append h2]
            simp [node, hf]
        | _ => cases h3

theorem Will.runs {s s' : State F} {tr : List Ev} (r : Runs ops s tr s') (os : Nat → List (Out F))
    (h : ∀ t, Will ops s.value (s.threads t) (os t)) :
    s'.value = s.value ∧ (∀ e ∈ tr, e.wrote = false) ∧ ∀ t, Will ops s'.value (s'.threads t) (os t) := by
  induction r with
  | nil => exact ⟨rfl, by simp, h⟩
  | @step s t m rest b v th tr s' hm ha _ ih =>
    obtain ⟨th', h1, h2⟩ := (h t).step hm
    rw [ha] at h1
    cases h1
    obtain ⟨g1, g2, g3⟩ := ih (by
      intro u
      simp only
      split
      · rename_i e; subst e; exact h2
      · exact h u)
    exact ⟨g1, by simpa using g2, g3⟩

/-! ## Threads that write -/

/-- What the first lookup depends on. -/
inductive Shape where
  | object (keys : List Str)
  | array
  | other

def shape : Json F → Shape
  | .obj ms => .object (ms.map Prod.fst)
  | .arr _ => .array
  | _ => .other

theorem keys_find {k : Str} : ∀ {ms : List (Str × Json F)}, Json.findMember k ms = none ↔ k ∉ ms.map Prod.fst
  | [] => by simp [Json.findMember]
  | (k', v) :: ms => by
    simp only [Json.findMember]
    by_cases c : k' = k
    · simp [c]
    · simp [c, Ne.symm c, keys_find (ms := ms)]

theorem shape_replace (w : Json F) (v : Json F) (i : Nat) (p : List Nat) : shape (replace w v (i :: p)) = shape v := by
  cases v with
  | arr js => simp only [replace]; split <;> rfl
  | obj ms =>
    simp only [replace]
    split
    · rename_i m hm
      simp only [shape, Shape.object.injEq]
      apply List.ext_getElem?
      intro j
      simp only [List.getElem?_map, List.getElem?_set]
      split
      · rename_i e
        subst e
        obtain ⟨h1, h2⟩ := List.getElem?_eq_some_iff.mp hm
        simp [h1, h2]
      · rfl
    · rfl
  | _ => rfl

/-- A step that does not write the data of the root leaves the shape. -/
theorem shape_advance {v v' : Json F} {th th' : Thread F} {m rest b} (t : Nat) (h : advance ops v th m rest = .ok (b, v', th'))
    (n : ¬ StepWrites ⟨t, m, th.pos, b⟩ (.data [])) : shape v' = shape v := by
  have key : ∀ w : Json F, th.pos ≠ [] → shape (replace w v th.pos) = shape v := by
    intro w hp
    cases hq : th.pos with
    | nil => exact absurd hq hp
    | cons i p => exact shape_replace w v i p
  cases hn : node v th.pos with
  | none => simp only [advance, hn] at h; cases h
  | some j =>
    simp only [advance, hn] at h
    cases m with
    | setObject =>
      simp only at h
      split at h <;> simp only [Except.ok.injEq, Prod.mk.injEq] at h <;> obtain ⟨rfl, rfl, rfl⟩ := h
      · rfl
      · exact key _ fun hp => n ⟨rfl, by simp [hp]⟩
    | setArray =>
      simp only at h
      split at h <;> simp only [Except.ok.injEq, Prod.mk.injEq] at h <;> obtain ⟨rfl, rfl, rfl⟩ := h
      · rfl
      · exact key _ fun hp => n ⟨rfl, by simp [hp]⟩
    | findKey k =>
      simp only at h
      split at h
      · split at h <;> simp only [Except.ok.injEq, Prod.mk.injEq] at h <;> obtain ⟨rfl, rfl, rfl⟩ := h
        · rfl
        · exact key _ fun hp => n ⟨rfl, by simp [hp]⟩
      · cases h
    | findIndex i =>
      simp only at h
      split at h
      · split at h
        · simp only [Except.ok.injEq, Prod.mk.injEq] at h; obtain ⟨rfl, rfl, rfl⟩ := h; rfl
        · cases h
      · cases h
    | atKey k =>
      simp only at h
      split at h
      · split at h <;> simp only [Except.ok.injEq, Prod.mk.injEq] at h <;> obtain ⟨rfl, rfl, rfl⟩ := h <;> rfl
      · cases h
    | atIndex i =>
      simp only at h
      split at h
      · split at h <;> simp only [Except.ok.injEq, Prod.mk.injEq] at h <;> obtain ⟨rfl, rfl, rfl⟩ := h <;> rfl
      · cases h
    | answer l => simp only [Except.ok.injEq, Prod.mk.injEq] at h; obtain ⟨rfl, rfl, rfl⟩ := h; rfl

def Lacks (sh : Shape) (k : Str) : Prop := ∀ ks, sh = .object ks → k ∉ ks

theorem lacks_iff {v : Json F} {k : Str} : Lacks (shape v) k ↔ Absent v k := by
  constructor
  · intro h ms e
    subst e
    exact keys_find.mpr (h _ rfl)
  · intro h ks e
    cases v with
    | obj ms => cases e; exact keys_find.mp (h ms rfl)
    | _ => cases e

/-- While nobody writes the data of the root, nobody looks for a member at the root that is not there. -/
theorem no_loud {s s' : State F} {tr : List Ev} (r : Runs ops s tr s') (n : ∀ e ∈ tr, ¬ StepWrites e (.data [])) :
    ∀ e ∈ tr, e.pos = [] → ∀ k, e.step = .findKey k → ¬ Lacks (shape s.value) k := by
  induction r with
  | nil => simp
  | @step s t m rest b v th tr s' hm ha _ ih =>
    have n1 := n _ List.mem_cons_self
    have hs := shape_advance t ha n1
    replace ih := ih (fun e he => n e (by simp [he]))
    simp only at ih
    rw [hs] at ih
    intro e he
    rcases List.mem_cons.mp he with rfl | he
    · simp only
      rintro hp k rfl hl
      rw [lacks_iff] at hl
      simp only [advance, hp, node] at ha
      split at ha
      · rename_i ms hv
        have g := find_none.mpr (hl ms hv)
        rw [g] at ha
        simp only [Except.ok.injEq, Prod.mk.injEq] at ha
        obtain ⟨rfl, _⟩ := ha
        exact n1 ⟨rfl, hp.symm⟩
      · cases ha
    · exact ih e he

/-- The next step of a thread at the root happens in an execution to the end. -/
theorem next_event {s s' : State F} {tr : List Ev} (r : Runs ops s tr s') {t : Nat} (he : (s'.threads t).todo = []) {m rest}
    (hm : (s.threads t).todo = m :: rest) (hp : (s.threads t).pos = []) :
    ∃ e ∈ tr, e.thread = t ∧ e.pos = [] ∧ e.step = m := by
  induction r with
  | nil => rw [hm] at he; cases he
  | @step s u m' rest' b v th tr s' hm' ha _ ih =>
    by_cases c : t = u
    · subst c
      rw [hm] at hm'
      cases hm'
      exact ⟨_, List.mem_cons_self, rfl, hp, rfl⟩
    · obtain ⟨e, h1, h2⟩ := ih he (by simpa [c] using hm) (by simpa [c] using hp)
      exact ⟨e, by simp [h1], h2⟩

def NoAnswer (c : List Micro) : Prop := ∀ m ∈ c, ∀ l, m ≠ .answer l

/-- The thread has these queries before it. -/
def Ready (th : Thread F) (qs : List Query) : Prop :=
  (th.pos = [] ∧ th.todo = qs.flatMap Query.steps) ∨
  ∃ c l, NoAnswer c ∧ th.todo = c ++ .answer l :: qs.flatMap Query.steps

theorem afterAnswer_pre {c : List Micro} (h : NoAnswer c) (l : Last) (r : List Micro) : afterAnswer (c ++ .answer l :: r) = r := by
  induction c with
  | nil => rfl
  | cons m c ih =>
    have ih := ih fun m hm => h m (by simp [hm])
    cases m with
    | answer l' => exact absurd rfl (h _ (by simp) l')
    | _ => simpa [afterAnswer] using ih

theorem advance_cases {v v' : Json F} {th th' : Thread F} {m rest b} (h : advance ops v th m rest = .ok (b, v', th')) :
    ((∀ l, m ≠ .answer l) ∧ (th'.todo = rest ∨ (th'.pos = [] ∧ th'.todo = afterAnswer rest))) ∨
    ∃ l, m = .answer l ∧ th'.pos = [] ∧ th'.todo = rest := by
  cases hn : node v th.pos with
  | none => simp only [advance, hn] at h; cases h
  | some j =>
    simp only [advance, hn] at h
    cases m <;> simp only at h
    case answer l =>
      right
      simp only [Except.ok.injEq, Prod.mk.injEq] at h
      obtain ⟨rfl, rfl, rfl⟩ := h
      exact ⟨l, rfl, rfl, rfl⟩
    all_goals
      left
      refine ⟨by simp, ?_⟩
      (repeat' split at h) <;> first | (cases h; done) | skip
      all_goals
        simp only [Except.ok.injEq, Prod.mk.injEq] at h
        obtain ⟨rfl, rfl, rfl⟩ := h
        simp

theorem advance_set {v v' : Json F} {th th' : Thread F} {rest b} (h : advance ops v th .setObject rest = .ok (b, v', th')) :
    th'.pos = th.pos ∧ th'.todo = rest := by
  cases hn : node v th.pos with
  | none => simp only [advance, hn] at h; cases h
  | some j =>
    simp only [advance, hn] at h
    split at h <;> simp only [Except.ok.injEq, Prod.mk.injEq] at h <;> obtain ⟨rfl, rfl, rfl⟩ := h <;> exact ⟨rfl, rfl⟩

theorem advance_setArray {v v' : Json F} {th th' : Thread F} {rest b} (h : advance ops v th .setArray rest = .ok (b, v', th')) :
    th'.pos = th.pos ∧ th'.todo = rest := by
  cases hn : node v th.pos with
  | none => simp only [advance, hn] at h; cases h
  | some j =>
    simp only [advance, hn] at h
    split at h <;> simp only [Except.ok.injEq, Prod.mk.injEq] at h <;> obtain ⟨rfl, rfl, rfl⟩ := h <;> exact ⟨rfl, rfl⟩

theorem noAnswer_seeks (ss : List Seek) : NoAnswer (ss.flatMap Seek.steps) := by
  intro m hm l e
  subst e
  obtain ⟨s, _, h⟩ := List.mem_flatMap.mp hm
  cases s <;> simp [Seek.steps] at h

theorem NoAnswer.step {th th' : Thread F} {v v' : Json F} {m rest b} {c : List Micro} {l : Last} {r : List Micro}
    (hc : NoAnswer c) (hm : m :: rest = c ++ .answer l :: r) (h : advance ops v th m rest = .ok (b, v', th')) :
    (th'.pos = [] ∧ th'.todo = r) ∨ ∃ c', NoAnswer c' ∧ th'.todo = c' ++ .answer l :: r := by
  cases c with
  | nil =>
    simp only [List.nil_append, List.cons.injEq] at hm
    obtain ⟨rfl, rfl⟩ := hm
    rcases advance_cases h with ⟨h, _⟩ | ⟨l', _, h1, h2⟩
    · exact absurd rfl (h l)
    · exact .inl ⟨h1, h2⟩
  | cons m' c =>
    simp only [List.cons_append, List.cons.injEq] at hm
    obtain ⟨rfl, rfl⟩ := hm
    have hc' : NoAnswer c := fun m hm => hc m (by simp [hm])
    rcases advance_cases h with ⟨_, h | ⟨h1, h2⟩⟩ | ⟨l', h, _⟩
    · exact .inr ⟨c, hc', h⟩
    · exact .inl ⟨h1, by rw [h2, afterAnswer_pre hc']⟩
    · exact absurd h (hc _ (by simp) _)

/-- The step of a lookup that uses the members or items. -/
def Seek.main : Seek → Micro
  | .key k => .findKey k
  | .index i => .findIndex i
  | .atKey k => .atKey k
  | .atIndex i => .atIndex i

theorem query_event {s s' : State F} {tr : List Ev} (r : Runs ops s tr s') {t : Nat} (he : (s'.threads t).todo = []) {qs : List Query}
    (hr : Ready (s.threads t) qs) {q : Query} (hq : q ∈ qs) {sk : Seek} {ss : List Seek} (hs : q.path = sk :: ss) :
    ∃ e ∈ tr, e.thread = t ∧ e.pos = [] ∧ e.step = sk.main := by
  induction r generalizing qs with
  | nil =>
    rcases hr with ⟨_, h⟩ | ⟨c, l, _, h⟩
    · rw [h] at he
      have := List.flatMap_eq_nil_iff.mp he q hq
      simp [Query.steps] at this
    · rw [h] at he; simp at he
  | @step s u m rest b v th tr s' hm ha hrun ih =>
    by_cases c : t = u
    · subst c
      have rec' : ∀ qs', q ∈ qs' → Ready th qs' → ∃ e ∈ (⟨t, m, (s.threads t).pos, b⟩ :: tr : List Ev), e.thread = t ∧ e.pos = [] ∧ e.step = sk.main := by
        intro qs' h1 h2
        obtain ⟨e, g1, g2⟩ := ih he (qs := qs') (by simpa using h2) h1
        exact ⟨e, by simp [g1], g2⟩
      rcases hr with ⟨hp, h⟩ | ⟨c, l, hc, h⟩
      · cases qs with
        | nil => cases hq
        | cons q' qs =>
          rcases List.mem_cons.mp hq with rfl | hq
          · rw [hm] at h
            simp only [List.flatMap_cons, Query.steps, hs] at h
            cases sk with
            | key k =>
              simp only [Seek.steps, List.cons_append, List.nil_append, List.cons.injEq] at h
              obtain ⟨rfl, rfl⟩ := h
              obtain ⟨h1, h2⟩ := advance_set ha
              obtain ⟨e, g1, g2⟩ := next_event hrun he (t := t) (m := .findKey k) (by simp only [if_true]; exact h2) (by simp only [if_true]; rw [h1, hp])
              exact ⟨e, by simp [g1], g2⟩
            | index i =>
              simp only [Seek.steps, List.cons_append, List.nil_append, List.cons.injEq] at h
              obtain ⟨rfl, rfl⟩ := h
              obtain ⟨h1, h2⟩ := advance_setArray ha
              obtain ⟨e, g1, g2⟩ := next_event hrun he (t := t) (m := .findIndex i) (by simp only [if_true]; exact h2) (by simp only [if_true]; rw [h1, hp])
              exact ⟨e, by simp [g1], g2⟩
            | atKey k =>
              simp only [Seek.steps, List.cons_append, List.nil_append, List.cons.injEq] at h
              exact ⟨_, List.mem_cons_self, rfl, hp, h.1⟩
            | atIndex i =>
              simp only [Seek.steps, List.cons_append, List.nil_append, List.cons.injEq] at h
              exact ⟨_, List.mem_cons_self, rfl, hp, h.1⟩
          · apply rec' qs hq
            rw [hm, List.flatMap_cons, Query.steps, List.append_assoc, List.singleton_append] at h
            rcases NoAnswer.step (noAnswer_seeks q'.path) h ha with h | ⟨c', h1, h2⟩
            · exact .inl h
            · exact .inr ⟨c', _, h1, h2⟩
      · apply rec' qs hq
        rw [hm] at h
        rcases NoAnswer.step hc h ha with h | ⟨c', h1, h2⟩
        · exact .inl h
        · exact .inr ⟨c', _, h1, h2⟩
    · obtain ⟨e, h1, h2⟩ := ih he (qs := qs) (by simpa [c] using hr) hq
      exact ⟨e, by simp [h1], h2⟩

theorem main_reads {e : Ev} {sk : Seek} (h1 : e.pos = []) (h2 : e.step = sk.main) : StepReads e (.data []) := by
  cases sk <;> simp [StepReads, h1, h2, Seek.main]

theorem race {v : Json F} {qs : Nat → List Query} {tr : List Ev} {s' : State F} (r : Runs ops (start v qs) tr s') {s t : Nat}
    (ne : s ≠ t) (es : (s'.threads s).todo = []) (et : (s'.threads t).todo = [])
    {q : Query} (hq : q ∈ qs s) {k ss} (hs : q.path = .key k :: ss) (ha : Absent v k)
    {q' : Query} (hq' : q' ∈ qs t) (hp : q'.path ≠ []) : DataRace tr := by
  obtain ⟨e1, m1, t1, p1, k1⟩ := query_event r es (.inl ⟨rfl, rfl⟩) hq hs
  cases hq2 : q'.path with
  | nil => exact absurd hq2 hp
  | cons sk ss' =>
    obtain ⟨e2, m2, t2, p2, k2⟩ := query_event r et (.inl ⟨rfl, rfl⟩) hq' hq2
    by_cases w : ∃ e ∈ tr, StepWrites e (.data [])
    · obtain ⟨e, me, we⟩ := w
      by_cases c : e.thread = s
      · exact ⟨e, me, e2, m2, by rw [c, t2]; exact ne, _, we, .inl (main_reads p2 k2)⟩
      · exact ⟨e, me, e1, m1, by rw [t1]; exact c, _, we, .inl (main_reads p1 k1)⟩
    · exact absurd (lacks_iff.mpr ha) (no_loud r (fun e he h => w ⟨e, he, h⟩) e1 m1 p1 k k1)

end Caitlyn.JsonThreads
