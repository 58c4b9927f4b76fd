import Verif.Proofs.Shared
import Verif.Proofs.Raw

/-! # C68-C72: ownership of the smart pointers -/

namespace Caitlyn
open Spec

/-! ## C68 -/

/-- C68: over every history of `UniquePtr` variables nothing undefined happens; every variable owns what the history
says; an object has exactly one owner and has not been deleted, or it has no owner and has been deleted exactly once.
As this holds after every prefix of a history, an object is deleted by the very statement that takes its last owner
away. -/
theorem C68_exactly_once (ops : List Unique.Op) :
    ∃ w, Unique.run {} ops = .ok w ∧
      (∀ x, w.vars.lookup x = (uniqueRun ops).own x) ∧
      (∀ id < (uniqueRun ops).next, (uniqueRun ops).owned id → id ∈ w.heap.live ∧ w.heap.dead.count id = 0) ∧
      (∀ id < (uniqueRun ops).next, ¬ (uniqueRun ops).owned id → id ∉ w.heap.live ∧ w.heap.dead.count id = 1) := by
  obtain ⟨w, h1, h2⟩ := Unique.Inv.run Unique.Inv.init ops
  change Unique.Inv w (uniqueRun ops) at h2
  refine ⟨w, h1, h2.own, ?_, ?_⟩
  · rintro id hid ⟨x, hx⟩
    rw [← h2.own] at hx
    have h3 := h2.live hx
    have h4 := h2.heap id
    rw [decide_eq_true (by rw [h2.next]; exact hid), b2n_true] at h4
    exact ⟨List.count_pos_iff.1 h3, by omega⟩
  · intro id hid hno
    have h4 := h2.heap id
    rw [decide_eq_true (by rw [h2.next]; exact hid), b2n_true] at h4
    have h5 : w.heap.live.count id = 0 := by
      rw [h2.held, Vars.held, List.countP_eq_zero]
      intro e he hh
      apply hno
      refine ⟨e.1, ?_⟩
      rw [← h2.own, Vars.lookup_of_mem h2.keys (show (e.1, e.2) ∈ w.vars from he)]
      simp only [Unique.holds, beq_iff_eq] at hh
      rw [hh]
    exact ⟨List.count_eq_zero.1 h5, by omega⟩

/-- C68: ownership is unique. -/
theorem C68_unique_owner (ops : List Unique.Op) (x y id : Nat) (hx : (uniqueRun ops).own x = some (some id))
    (hy : (uniqueRun ops).own y = some (some id)) : x = y := by
  obtain ⟨w, h1, h2⟩ := Unique.Inv.run Unique.Inv.init ops
  change Unique.Inv w (uniqueRun ops) at h2
  by_cases hxy : x = y
  · exact hxy
  · have h3 := Unique.two_le_held hxy (p := Unique.holds id) ((h2.own x).trans hx) ((h2.own y).trans hy)
      (by simp [Unique.holds]) (by simp [Unique.holds])
    rw [← h2.held] at h3
    have h4 := h2.heap id
    have : b2n (decide (id < w.heap.next)) ≤ 1 := by unfold b2n; split <;> omega
    omega

/-- C68: dereferencing a null pointer throws `runtime_error`. -/
theorem C68_null (h : Heap) : h.deref none = .error .runtimeError := rfl

example : (Unique.run {} [.make 0, .make 1, .move 2 0, .moveAssign 2 1, .resetNew 2, .resetSelf 2, .deref 2,
      .deref 0, .destroy 0, .destroy 2]).map (fun w => (w.heap.live, w.heap.dead)) = .ok ([], [2, 1, 0]) ∧
    (uniqueRun [.make 0, .make 1, .move 2 0, .moveAssign 2 1]).own 2 = some (some 1) := by
  decide

/-! ## C69 and C70 -/

/-- The history never copy-constructs a `SharedPtr` (or `WeakPtr`) from an empty one. -/
def Spec.NoEmptyCopies (ops : List Shared.Op) : Prop :=
  ∀ pre x y, pre ++ [.copy x y] <+: ops → ¬ ((sharedRun pre).own x = none ∧ (sharedRun pre).own y = some none)

theorem shared_run (ops : List Shared.Op) (h : NoEmptyCopies ops) (hlen : ops.length < twoPow64) :
    ∃ w, Shared.run {} ops = .ok w ∧ Shared.Inv w (sharedRun ops) ∧ w.vars.length ≤ ops.length := by
  suffices ∀ (ops pre : List Shared.Op) (w : Shared.World), Shared.Inv w (sharedRun pre) →
      w.vars.length ≤ pre.length → NoEmptyCopies (pre ++ ops) → (pre ++ ops).length < twoPow64 →
      ∃ w', Shared.run w ops = .ok w' ∧ Shared.Inv w' (sharedRun (pre ++ ops)) ∧
        w'.vars.length ≤ (pre ++ ops).length from
    this ops [] {} Shared.Inv.init (Nat.le_refl _) h hlen
  intro ops
  induction ops with
  | nil => intro pre w hw hl _ _; exact ⟨w, rfl, by simpa using hw, by simpa using hl⟩
  | cons op ops ih =>
    intro pre w hw hl hne hlt
    rw [List.length_append, List.length_cons] at hlt
    have hop : Shared.NoEmptyCopy (sharedRun pre) op := by
      cases op with
      | copy x y => exact hne pre x y (by simp)
      | _ => trivial
    obtain ⟨w1, h1, h2, h3⟩ := hw.step op hop (by omega)
    have h4 : sharedRun (pre ++ [op]) = sharedStep (sharedRun pre) op := by
      simp [sharedRun, List.foldl_append]
    have e : pre ++ op :: ops = (pre ++ [op]) ++ ops := by simp
    rw [Shared.run, h1, e]
    exact ih (pre ++ [op]) w1 (by rw [h4]; exact h2) (by simp; omega) (by rw [← e]; exact hne)
      (by rw [← e, List.length_append, List.length_cons]; exact hlt)

/-- C69 (part): over every history that does not copy-construct from an empty pointer, nothing undefined happens,
and an object is never deleted twice and never deleted while a `SharedPtr` owns it. What is missing is that the
object is deleted when the last owner goes (`C69_fails`). -/
theorem C69_no_early_delete_partial (ops : List Shared.Op) (h : NoEmptyCopies ops) (hlen : ops.length < twoPow64) :
    ∃ w, Shared.run {} ops = .ok w ∧ (∀ id, w.heap.dead.count id ≤ 1) ∧
      ∀ id, (sharedRun ops).owned id → id ∈ w.heap.live ∧ w.heap.dead.count id = 0 := by
  obtain ⟨w, h1, h2, _⟩ := shared_run ops h hlen
  refine ⟨w, h1, fun id => by rw [h2.dead]; simp, ?_⟩
  rintro id ⟨x, hx⟩
  rw [← h2.own] at hx
  cases hl : w.vars.lookup x with
  | none => rw [hl] at hx; cases hx
  | some p =>
    rw [hl] at hx
    injection hx with hx
    have h3 := h2.data _ (Vars.mem_of_lookup hl) id hx
    have h4 := h2.heap id
    rw [decide_eq_true h3, h2.dead, b2n_true] at h4
    simp only [List.count_nil, Nat.add_zero] at h4
    exact ⟨List.count_pos_iff.1 (by omega), by rw [h2.dead]; rfl⟩

/-- C69 does not hold: `{ SharedPtr x{new T}; }` never deletes the object, and no history does. -/
theorem C69_fails :
    (Shared.run {} [.make 0, .destroy 0]).map (fun w => (w.vars, w.heap.live, w.heap.dead)) = .ok ([], [0], []) := by
  decide

/-- C69 does not hold: in no history is anything ever deleted. -/
theorem C69_leaks_fails (ops : List Shared.Op) (h : NoEmptyCopies ops) (hlen : ops.length < twoPow64) :
    ∃ w, Shared.run {} ops = .ok w ∧ w.heap.dead = [] := by
  obtain ⟨w, h1, h2, _⟩ := shared_run ops h hlen
  exact ⟨w, h1, h2.dead⟩

example : NoEmptyCopies [.make 0, .copy 1 0, .move 2 0, .assign 0 1, .resetNew 1, .deref 2, .destroy 2] ∧
    (sharedRun [.make 0, .copy 1 0, .move 2 0, .assign 0 1, .resetNew 1]).own 0 = some (some 0) := by
  refine ⟨?_, rfl⟩
  rintro pre x y ⟨t, ht⟩
  match pre, ht with
  | [], ht => simp at ht
  | [_], ht =>
    simp only [List.cons_append, List.nil_append, List.cons.injEq, Shared.Op.copy.injEq] at ht
    obtain ⟨rfl, ⟨rfl, rfl⟩, _⟩ := ht
    decide
  | [_, _], ht => simp at ht
  | [_, _, _], ht => simp at ht
  | [_, _, _, _], ht => simp at ht
  | [_, _, _, _, _], ht => simp at ht
  | [_, _, _, _, _, _], ht => simp at ht
  | _ :: _ :: _ :: _ :: _ :: _ :: _ :: t, ht =>
    have := congrArg List.length ht
    simp at this

/-- C70 (part): every `SharedPtr` points to the object the history says, and that object is alive; moved-from and
reset pointers are empty. Missing: copy construction from an empty pointer (`C70_fails`). -/
theorem C70_sharing_partial (ops : List Shared.Op) (h : NoEmptyCopies ops) (hlen : ops.length < twoPow64) :
    ∃ w, Shared.run {} ops = .ok w ∧ (∀ x, (w.vars.lookup x).map (·.data) = (sharedRun ops).own x) ∧
      ∀ x p id, w.vars.lookup x = some p → p.data = some id → w.heap.deref p.data = .ok id := by
  obtain ⟨w, h1, h2, _⟩ := shared_run ops h hlen
  refine ⟨w, h1, h2.own, fun x p id hx hd => ?_⟩
  obtain ⟨w', h1', _, h3⟩ := C69_no_early_delete_partial ops h hlen
  rw [h1] at h1'
  injection h1' with h1'
  subst h1'
  have := (h3 id ⟨x, by rw [← h2.own, hx]; exact congrArg some hd⟩).1
  rw [hd, Heap.deref, if_pos this]

/-- C70 (part): the reference count shared by the owners of an object is the number of its owners, and two pointers
share a count exactly when they point to the same object. -/
theorem C70_count_partial (ops : List Shared.Op) (h : NoEmptyCopies ops) (hlen : ops.length < twoPow64) :
    ∃ w, Shared.run {} ops = .ok w ∧
      (∀ e ∈ w.vars, ∀ c, e.2.count = some c →
        w.counters[c]? = some (some (w.vars.filter fun e' => e'.2.count = some c).length)) ∧
      ∀ e ∈ w.vars, ∀ e' ∈ w.vars, e.2.count = e'.2.count ↔ e.2.data = e'.2.data := by
  obtain ⟨w, h1, h2, _⟩ := shared_run ops h hlen
  refine ⟨w, h1, fun e he c hc => ?_, h2.same⟩
  rw [h2.counters c (h2.cnt e he c hc), Vars.held, List.countP_eq_length_filter]
  congr 3
  apply List.filter_congr
  intro e' _
  unfold Shared.uses
  by_cases hu : e'.2.count = some c
  · simp [hu]
  · rw [decide_eq_false hu]; simpa using hu

/-- The first copy construction from an empty pointer makes the history undefined. -/
theorem shared_run_empty (ops : List Shared.Op) (h : ¬ NoEmptyCopies ops) (hlen : ops.length < twoPow64) :
    Shared.run {} ops = .error .ub := by
  suffices ∀ (ops pre : List Shared.Op) (w : Shared.World), Shared.Inv w (sharedRun pre) →
      w.vars.length ≤ pre.length → NoEmptyCopies pre → ¬ NoEmptyCopies (pre ++ ops) →
      (pre ++ ops).length < twoPow64 → Shared.run w ops = .error .ub from
    this ops [] {} Shared.Inv.init (Nat.le_refl _) (by
      rintro pre x y ⟨t, ht⟩; simp at ht) h hlen
  intro ops
  induction ops with
  | nil => intro pre w _ _ h1 h2; exact absurd h1 (by simpa using h2)
  | cons op ops ih =>
    intro pre w hw hl hpre hne hlt
    rw [List.length_append, List.length_cons] at hlt
    by_cases hop : Shared.NoEmptyCopy (sharedRun pre) op
    · obtain ⟨w1, h1, h2, h3⟩ := hw.step op hop (by omega)
      have h4 : sharedRun (pre ++ [op]) = sharedStep (sharedRun pre) op := by
        simp [sharedRun, List.foldl_append]
      have e : pre ++ op :: ops = (pre ++ [op]) ++ ops := by simp
      rw [Shared.run, h1]
      refine ih (pre ++ [op]) w1 (by rw [h4]; exact h2) (by simp; omega) ?_ (by rw [← e]; exact hne)
        (by rw [← e, List.length_append, List.length_cons]; exact hlt)
      rintro p x y ⟨t, ht⟩
      rcases List.eq_nil_or_concat t with rfl | ⟨t', a, rfl⟩
      · rw [List.append_nil] at ht
        obtain ⟨rfl, ho⟩ := List.append_inj' ht rfl
        injection ho with ho
        subst ho
        exact hop
      · rw [List.concat_eq_append, ← List.append_assoc] at ht
        exact hpre p x y ⟨t', (List.append_inj' ht rfl).1⟩
    · rw [Shared.run, hw.step_empty hop]
      rfl

/-- C70 does not hold for empty pointers, and for nothing else: a history is undefined exactly when somewhere in it a
`SharedPtr` (or a `WeakPtr`, or by `lock()`) is copy-constructed from an empty one. -/
theorem C70_undefined_fails (ops : List Shared.Op) (hlen : ops.length < twoPow64) :
    Shared.run {} ops = .error .ub ↔
      ∃ pre x y, pre ++ [.copy x y] <+: ops ∧ (sharedRun pre).own x = none ∧ (sharedRun pre).own y = some none := by
  by_cases h : NoEmptyCopies ops
  · obtain ⟨w, hw, _⟩ := shared_run ops h hlen
    rw [hw]
    exact ⟨fun h' => by (cases h'), fun ⟨pre, x, y, h1, h2⟩ => absurd h2 (h pre x y h1)⟩
  · refine ⟨fun _ => ?_, fun _ => shared_run_empty ops h hlen⟩
    simpa [NoEmptyCopies] using h

/-- C70 does not hold for empty pointers: `SharedPtr x; SharedPtr y{x};` uses a null counter. -/
theorem C70_fails : Shared.run {} [.makeEmpty 0, .copy 1 0] = .error .ub := by decide

/-! ## C71 -/

/-- C71 (part): over every history, a `WeakPtr` that has not expired gives access to a live object: `lock()` (a copy
construction from the pointer it holds) gives a pointer to that object. -/
theorem C71_lock_partial (ops : List Shared.Op) (x y : Nat) (h : NoEmptyCopies ops)
    (hlen : ops.length + 1 < twoPow64) :
    ∃ w, Shared.run {} ops = .ok w ∧
      ∀ p, w.vars.lookup x = some p → Shared.expired p = false → w.vars.lookup y = none →
        ∃ w' id, Shared.step w (.copy y x) = .ok w' ∧ w'.vars.lookup y = some p ∧ w'.heap.deref p.data = .ok id := by
  obtain ⟨w, h1, h2, h3⟩ := shared_run ops h (by omega)
  refine ⟨w, h1, fun p hp he hy => ?_⟩
  cases hd : p.data with
  | none => simp [Shared.expired, hd] at he
  | some id =>
    obtain ⟨w1, h4, h5, _⟩ := h2.step (.copy y x) (by
      change ¬ _
      rw [Shared.lookup_data h2 hp, hd]
      simp) (by omega)
    have h6 := h4
    simp only [Shared.step, hp, hy] at h6
    cases hf : Shared.fetchAdd w.counters p.count with
    | error e => rw [hf] at h6; cases h6
    | ok cs =>
      rw [hf] at h6
      have e : { w with counters := cs, vars := (y, p) :: w.vars } = w1 := by injection h6
      refine ⟨w1, id, h4, by rw [← e]; simp, ?_⟩
      obtain ⟨w2, h7, _, h8⟩ := C70_sharing_partial ops h (by omega)
      rw [h1] at h7
      injection h7 with h7
      subst h7
      have := h8 x p id hp hd
      rw [hd] at this
      rw [← e]
      exact this

example : (Shared.run {} [.make 0, .copy 1 0, .destroy 0]).map (fun w => (w.vars.lookup 1).map Shared.expired) =
    .ok (some false) := by decide

/-- C71 does not hold: after `SharedPtr x{new T}; WeakPtr y{x}; x.Reset();` there is no `SharedPtr` left, but `y` has
not expired: it is an owner itself. -/
theorem C71_fails :
    (Shared.run {} [.make 0, .copy 1 0, .reset 0]).map (fun w => w.vars.map fun e => (e.1, Shared.expired e.2)) =
      .ok [(1, false), (0, true)] := by decide

/-- The statement neither assigns to the pointer `y`, nor resets, moves or destroys it. -/
def Spec.Spares (y : Nat) : Shared.Op → Prop
  | .move _ b => b ≠ y
  | .assign a _ => a ≠ y
  | .moveAssign a b => a ≠ y ∧ b ≠ y
  | .reset a | .resetNew a | .destroy a => a ≠ y
  | _ => True

private theorem spared_own (y id : Nat) (op : Shared.Op) (s : Owners) (h : Spares y op) (hy : s.own y = some (some id)) :
    (sharedStep s op).own y = some (some id) := by
  have hput : ∀ (s : Owners) x a, x ≠ y → s.own y = some (some id) → (s.put x a).own y = some (some id) := by
    intro s x a hx hy
    simp only [Owners.put, upd, if_neg (Ne.symm hx)]
    exact hy
  have hfresh : ∀ (s : Owners) x, x ≠ y → s.own y = some (some id) → (s.fresh x).own y = some (some id) := by
    intro s x hx hy
    simp only [Owners.fresh, upd, if_neg (Ne.symm hx)]
    exact hy
  have hex : ∀ x, s.own x = none → x ≠ y := by rintro x hx rfl; rw [hx] at hy; cases hy
  cases op with
  | make x =>
    simp only [sharedStep]; split
    · exact hfresh _ _ (hex x (by assumption)) hy
    · exact hy
  | makeEmpty x =>
    simp only [sharedStep]; split
    · exact hput _ _ _ (hex x (by assumption)) hy
    · exact hy
  | copy x z =>
    simp only [sharedStep]; split
    · exact hput _ _ _ (hex x (by assumption)) hy
    · exact hy
  | move x z =>
    simp only [sharedStep]; split
    · rename_i hx; exact hput _ _ _ h (hput _ _ _ (hex x hx.1) hy)
    · exact hy
  | assign x z =>
    simp only [sharedStep]; split
    · exact hput _ _ _ h hy
    · exact hy
  | moveAssign x z =>
    simp only [sharedStep]; split
    · exact hput _ _ _ h.2 (hput _ _ _ h.1 hy)
    · exact hy
  | reset x =>
    simp only [sharedStep]; split
    · exact hput _ _ _ h hy
    · exact hy
  | resetNew x =>
    simp only [sharedStep]; split
    · exact hfresh _ _ h hy
    · exact hy
  | deref x => exact hy
  | destroy x => exact hput _ _ _ h hy

/-- C71 does not hold, for any history: a `WeakPtr` made from a pointer to an object never expires as long as it is not itself assigned
to, reset, moved or destroyed. Whatever becomes of the `SharedPtr`s, it refers to the object, which stays alive. -/
theorem C71_never_fails (pre post : List Shared.Op) (y id : Nat) (h : NoEmptyCopies (pre ++ post))
    (hlen : (pre ++ post).length < twoPow64) (hy : (sharedRun pre).own y = some (some id)) (hs : ∀ op ∈ post, Spares y op) :
    ∃ w p, Shared.run {} (pre ++ post) = .ok w ∧ w.vars.lookup y = some p ∧ Shared.expired p = false ∧
      w.heap.deref p.data = .ok id := by
  obtain ⟨w, h1, h2, h3⟩ := C70_sharing_partial (pre ++ post) h hlen
  have hown : (sharedRun (pre ++ post)).own y = some (some id) := by
    unfold sharedRun
    rw [List.foldl_append]
    have hy' : (List.foldl sharedStep {} pre).own y = some (some id) := hy
    generalize List.foldl sharedStep {} pre = s at hy'
    clear h hlen h1 h2 h3 w
    induction post generalizing s with
    | nil => exact hy'
    | cons op post ih => exact ih (fun o ho => hs o (by simp [ho])) _ (spared_own y id op s (hs op (by simp)) hy')
  rw [← h2] at hown
  cases hl : w.vars.lookup y with
  | none => rw [hl] at hown; cases hown
  | some p =>
    rw [hl] at hown
    have hd : p.data = some id := by simpa using hown
    exact ⟨w, p, h1, hl, by simp [Shared.expired, hd], h3 y p id hl hd⟩

/-- The hypotheses for `SharedPtr x{new T}; WeakPtr y{x}; x.Reset();` and the end of the scope of `x`. -/
example : (sharedRun [.make 0, .copy 1 0]).own 1 = some (some 0) ∧ (∀ op ∈ [Shared.Op.reset 0, .destroy 0], Spares 1 op) ∧
    (Shared.run {} [.make 0, .copy 1 0, .reset 0, .destroy 0]).map (fun w => w.vars.map fun e => (e.1, Shared.expired e.2)) =
      .ok [(1, false)] := by
  refine ⟨by decide, ?_, by decide⟩
  simp [Spares]

/-! ## C72 -/

/-- The history makes no second `Ptr` to an object: no copies, no `x.Reset(x.Get())`. -/
def Spec.NotAliased (ops : List Raw.Op) : Prop :=
  ∀ op ∈ ops, ∀ x y, op ≠ .copy x y ∧ op ≠ .assign x y ∧ op ≠ .resetSelf x

/-- C72: for histories without aliases nothing undefined happens, and the objects deleted are, in order, exactly the
pointees of the `Ptr`s on which `Reset` or `Destroy` was called, each once. -/
theorem C72_not_aliased (ops : List Raw.Op) (h : NotAliased ops) :
    ∃ w s, Raw.run {} ops = .ok w ∧ rawRun {} ops = some s ∧ w.heap.dead = s.deleted ∧ w.heap.dead.Nodup ∧
      (∀ x, w.vars.lookup x = s.ptr x) ∧ ∀ x id, s.ptr x = some (some id) → id ∈ w.heap.live := by
  obtain ⟨s, hs, hc⟩ := Raw.Clean.init.run ops (by
    intro op hop
    cases op with
    | copy x y => exact absurd rfl (h _ hop x y).1
    | assign x y => exact absurd rfl (h _ hop x y).2.1
    | resetSelf x => exact absurd rfl (h _ hop x x).2.2
    | _ => trivial)
  have h1 := Raw.Inv.init.run ops
  rw [hs] at h1
  obtain ⟨w, h2, h3⟩ := h1
  refine ⟨w, s, h2, hs, h3.dead, ?_, h3.ptr, ?_⟩
  · rw [List.nodup_iff_count]
    intro id
    have := h3.heap id
    have : b2n (decide (id < w.heap.next)) ≤ 1 := by unfold b2n; split <;> omega
    omega
  · intro x id hx
    exact List.count_pos_iff.1 (h3.live hx (hc.1 x))

example : NotAliased [.make 0, .resetNew 0, .assignNew 0, .destroyCall 0, .deref 0] ∧
    (rawRun {} [.make 0, .resetNew 0, .assignNew 0, .destroyCall 0, .deref 0]).map (·.deleted) = some [2, 0] := by
  refine ⟨?_, by decide⟩
  intro op hop x y
  simp only [List.mem_cons, List.not_mem_nil, or_false] at hop
  rcases hop with rfl | rfl | rfl | rfl | rfl <;> simp

/-- C72, all histories: with aliases the outcome is undefined exactly when a pointer to an object already deleted is
dereferenced, `Reset` or `Destroy`ed; otherwise the deletions are those of the specification. -/
theorem C72_exact (ops : List Raw.Op) :
    (rawRun {} ops = none → Raw.run {} ops = .error .ub) ∧
      ∀ s, rawRun {} ops = some s → ∃ w, Raw.run {} ops = .ok w ∧ w.heap.dead = s.deleted := by
  have h1 := Raw.Inv.init.run ops
  constructor
  · intro h
    rw [h] at h1
    exact h1
  · intro s hs
    rw [hs] at h1
    obtain ⟨w, h2, h3⟩ := h1
    exact ⟨w, h2, h3.dead⟩

/-- Aliased `Ptr`s are deleted twice, and `x.Reset(x.Get())` leaves a dangling pointer. -/
theorem C72_aliased :
    Raw.run {} [.make 0, .copy 1 0, .destroyCall 0, .destroyCall 1] = .error .ub ∧
      Raw.run {} [.make 0, .resetSelf 0, .deref 0] = .error .ub := by decide

/-- C72: dereferencing a null `Ptr` throws. -/
theorem C72_null (h : Heap) : h.deref none = .error .runtimeError := rfl

end Caitlyn
