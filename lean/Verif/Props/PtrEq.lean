import Verif.Model.PtrEq
import Verif.Props.Ptr

/-! # C105: comparisons of pointers -/

namespace Caitlyn
open Spec

/-- C105, `UniquePtr`: after every history, a variable is equal to `nullptr` exactly if the history left it empty, and two
different variables are equal exactly if both are empty. `Get()` is the object owned. `!=` is the opposite of `==`. -/
theorem C105_unique (ops : List Unique.Op) :
    ∃ w, Unique.run {} ops = .ok w ∧
      ∀ x p, w.vars.lookup x = some p →
        (uniqueRun ops).own x = some (Unique.get p) ∧
        (Unique.eqNull p = true ↔ (uniqueRun ops).own x = some none) ∧ Unique.neNull p = !Unique.eqNull p ∧
        ∀ y q, w.vars.lookup y = some q → Unique.ne p q = !Unique.eq p q ∧
          (Unique.eq p q = true ↔ x = y ∨ (uniqueRun ops).own x = some none ∧ (uniqueRun ops).own y = some none) := by
  obtain ⟨w, h1, h2, -⟩ := C68_exactly_once ops
  refine ⟨w, h1, fun x p hx => ?_⟩
  have ex := h2 x
  rw [hx] at ex
  refine ⟨ex.symm, ?_, by simp [Unique.neNull, Unique.eqNull], fun y q hy => ⟨by simp [Unique.ne, Unique.eq], ?_⟩⟩
  · rw [← ex]; simp [Unique.eqNull]
  · have ey := h2 y
    rw [hy] at ey
    rw [← ex, ← ey]
    simp only [Unique.eq, decide_eq_true_eq, Option.some.injEq]
    constructor
    · rintro rfl
      cases p with
      | none => exact .inr ⟨rfl, rfl⟩
      | some id => exact .inl (C68_unique_owner ops x y id ex.symm ey.symm)
    · rintro (rfl | ⟨rfl, rfl⟩)
      · rw [hx] at hy; exact Option.some.inj hy
      · rfl

/-- C105, `SharedPtr` and `WeakPtr`: after every history (that copy-constructs from no empty pointer) a variable is equal to
`nullptr` exactly if the history left it empty, and two variables are equal exactly if the history left them with the same
object, or both empty; equal pointers that are not empty share one counter. -/
theorem C105_shared (ops : List Shared.Op) (h : NoEmptyCopies ops) (hlen : ops.length < twoPow64) :
    ∃ w, Shared.run {} ops = .ok w ∧
      ∀ x p, w.vars.lookup x = some p →
        (sharedRun ops).own x = some (Shared.get p) ∧
        (Shared.eqNull p = true ↔ (sharedRun ops).own x = some none) ∧ Shared.neNull p = !Shared.eqNull p ∧
        ∀ y q, w.vars.lookup y = some q → Shared.ne p q = !Shared.eq p q ∧
          (Shared.eq p q = true ↔ (sharedRun ops).own x = (sharedRun ops).own y) ∧
          (Shared.eq p q = true ↔ p.count = q.count) := by
  obtain ⟨w, h1, h2, -⟩ := shared_run ops h hlen
  refine ⟨w, h1, fun x p hx => ?_⟩
  have ex := h2.own x
  rw [hx] at ex
  refine ⟨ex.symm, ?_, by simp [Shared.neNull, Shared.eqNull], fun y q hy => ⟨by simp [Shared.ne, Shared.eq], ?_, ?_⟩⟩
  · rw [← ex]; simp [Shared.eqNull]
  · have ey := h2.own y
    rw [hy] at ey
    rw [← ex, ← ey]
    simp [Shared.eq]
  · rw [h2.same _ (Vars.mem_of_lookup hx) _ (Vars.mem_of_lookup hy)]
    simp [Shared.eq]

/-- C105, `lock()`: on a `WeakPtr` that has expired it returns an empty pointer and changes no counter; on another it
returns a pointer equal to the one held, with a live object, and adds one to its counter. -/
theorem C105_lock (ops : List Shared.Op) (h : NoEmptyCopies ops) (hlen : ops.length < twoPow64) :
    ∃ w, Shared.run {} ops = .ok w ∧
      ∀ x p, w.vars.lookup x = some p →
        (Shared.expired p = true → Shared.lock w.counters p = .ok (w.counters, {})) ∧
        (Shared.expired p = false → ∃ c n, p.count = some c ∧ w.counters[c]? = some (some n) ∧
          n = (w.vars.filter fun e => e.2.count = some c).length ∧
          Shared.lock w.counters p = .ok (w.counters.set c (some (wadd n 1)), p) ∧
          ∃ id, w.heap.deref p.data = .ok id) := by
  obtain ⟨w, h1, h2, -⟩ := shared_run ops h hlen
  obtain ⟨w', h1', h3, -⟩ := C70_count_partial ops h hlen
  obtain ⟨w'', h1'', -, h4⟩ := C70_sharing_partial ops h hlen
  rw [h1] at h1' h1''
  injection h1' with h1'
  injection h1'' with h1''
  subst h1' h1''
  refine ⟨w, h1, fun x p hx => ⟨fun he => ?_, fun he => ?_⟩⟩
  · unfold Shared.lock
    rw [if_pos]
    simpa [Shared.eqNull, Shared.get, Shared.expired] using he
  · cases hd : p.data with
    | none => simp [Shared.expired, hd] at he
    | some id =>
      cases hc : p.count with
      | none => rw [((h2.null _ (Vars.mem_of_lookup hx)).2 hc)] at hd; cases hd
      | some c =>
        have := h3 _ (Vars.mem_of_lookup hx) c hc
        refine ⟨c, _, rfl, this, rfl, ?_, id, by rw [← hd]; exact h4 x p id hx hd⟩
        unfold Shared.lock
        rw [if_neg (by simp [Shared.eqNull, Shared.get, hd])]
        simp only [hc, Shared.fetchAdd, this]
        rfl

/-- C105, `Ptr`: after every history without aliases, a `Ptr` is equal to `nullptr` exactly if the history left it null, and
two `Ptr`s are equal exactly if the history left them with the same pointee or both null. -/
theorem C105_raw (ops : List Raw.Op) (h : NotAliased ops) :
    ∃ w s, Raw.run {} ops = .ok w ∧ rawRun {} ops = some s ∧
      ∀ x p, w.vars.lookup x = some p →
        s.ptr x = some (Raw.get p) ∧ (Raw.eqNull p = true ↔ s.ptr x = some none) ∧ Raw.neNull p = !Raw.eqNull p ∧
        ∀ y q, w.vars.lookup y = some q → Raw.ne p q = !Raw.eq p q ∧ (Raw.eq p q = true ↔ s.ptr x = s.ptr y) := by
  obtain ⟨w, s, h1, h2, -, -, h3, -⟩ := C72_not_aliased ops h
  refine ⟨w, s, h1, h2, fun x p hx => ?_⟩
  have ex := h3 x
  rw [hx] at ex
  refine ⟨ex.symm, ?_, by simp [Raw.neNull, Raw.eqNull], fun y q hy => ⟨by simp [Raw.ne, Raw.eq], ?_⟩⟩
  · rw [← ex]; simp [Raw.eqNull]
  · have ey := h3 y
    rw [hy] at ey
    rw [← ex, ← ey]
    simp [Raw.eq]

example : ∃ w, Unique.run {} [.make 0, .make 1, .move 2 0, .makeEmpty 3] = .ok w ∧
    (w.vars.lookup 0).bind (fun p => (w.vars.lookup 3).map (Unique.eq p)) = some true ∧
    (w.vars.lookup 1).bind (fun p => (w.vars.lookup 2).map (Unique.eq p)) = some false := ⟨_, rfl, rfl, rfl⟩

example : ∃ w, Shared.run {} [.make 0, .copy 1 0, .make 2, .destroy 0, .assign 2 1] = .ok w ∧
    (w.vars.lookup 1).bind (fun p => (w.vars.lookup 2).map (Shared.eq p)) = some true ∧
    (w.vars.lookup 1).map (fun p => (Shared.lock w.counters p).map (·.1)) = some (.ok [some 3, some 0]) :=
  ⟨_, rfl, rfl, rfl⟩

end Caitlyn
