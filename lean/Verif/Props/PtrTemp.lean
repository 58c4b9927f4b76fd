import Verif.Model.PtrTemp
import Verif.Proofs.Assoc

/-! # C162: giving a plain pointer where an owning pointer is expected does not give the object away -/

namespace Caitlyn
open PtrTemp

namespace PtrTemp

theorem delete_cases (h : Heap) (p : Option Nat) :
    (p = none ∧ h.delete p = .ok h) ∨
    (∃ d, p = some d ∧ d ∈ h.live ∧ h.delete p = .ok { h with live := h.live.erase d, dead := d :: h.dead }) ∨
    (∃ d, p = some d ∧ d ∉ h.live ∧ h.delete p = .error .ub) := by
  cases p with
  | none => exact .inl ⟨rfl, rfl⟩
  | some d =>
    by_cases hd : d ∈ h.live
    · exact .inr (.inl ⟨d, rfl, hd, by simp [Heap.delete, hd]⟩)
    · exact .inr (.inr ⟨d, rfl, hd, by simp [Heap.delete, hd]⟩)

/-- Only objects that have been made are known. -/
structure Known (h : Heap) (vs ps : Vars (Option Nat)) : Prop where
  nodup : h.live.Nodup
  live : ∀ d ∈ h.live, d < h.next
  vars : ∀ x d, vs.lookup x = some (some d) → d < h.next
  plain : ∀ r d, ps.lookup r = some (some d) → d < h.next

theorem Known.delete {h h' : Heap} {vs ps : Vars (Option Nat)} (hk : Known h vs ps) {p : Option Nat} (hd : h.delete p = .ok h') :
    Known h' vs ps := by
  rcases delete_cases h p with ⟨-, e⟩ | ⟨d, -, -, e⟩ | ⟨d, -, -, e⟩ <;> rw [hd] at e <;> cases e
  · exact hk
  · exact ⟨hk.nodup.erase d, fun x hx => hk.live x (List.mem_of_mem_erase hx), hk.vars, hk.plain⟩

theorem Known.new {h : Heap} {vs ps : Vars (Option Nat)} (hk : Known h vs ps) : Known h.new.1 vs ps := by
  refine ⟨List.nodup_cons.mpr ⟨fun x => Nat.lt_irrefl _ (hk.live _ x), hk.nodup⟩, ?_, ?_, ?_⟩
  · intro d hd
    rcases List.mem_cons.mp hd with rfl | x
    · exact Nat.lt_succ_self _
    · exact Nat.lt_succ_of_lt (hk.live d x)
  · exact fun x d e => Nat.lt_succ_of_lt (hk.vars x d e)
  · exact fun x d e => Nat.lt_succ_of_lt (hk.plain x d e)

theorem Known.set {h : Heap} {vs ps : Vars (Option Nat)} (hk : Known h vs ps) (x : Nat) {a : Option Nat}
    (ha : ∀ d, a = some d → d < h.next) : Known h (vs.set x a) ps := by
  refine ⟨hk.nodup, hk.live, fun y d e => ?_, hk.plain⟩
  rw [Vars.lookup_set] at e
  split at e
  · rcases hx : vs.lookup x with _ | b <;> rw [hx] at e
    · cases e
    · exact ha d (Option.some.inj e)
  · exact hk.vars y d e

theorem Known.cons {h : Heap} {vs ps : Vars (Option Nat)} (hk : Known h vs ps) (x : Nat) {a : Option Nat}
    (ha : ∀ d, a = some d → d < h.next) : Known h ((x, a) :: vs) ps := by
  refine ⟨hk.nodup, hk.live, fun y d e => ?_, hk.plain⟩
  rw [Vars.lookup_cons'] at e
  split at e
  · exact ha d (Option.some.inj e)
  · exact hk.vars y d e

theorem Known.drop {h : Heap} {vs ps : Vars (Option Nat)} (hk : Known h vs ps) (x : Nat) : Known h (vs.drop x) ps := by
  refine ⟨hk.nodup, hk.live, fun y d e => ?_, hk.plain⟩
  rw [Vars.lookup_drop] at e
  split at e
  · cases e
  · exact hk.vars y d e

theorem Known.point {h : Heap} {vs ps : Vars (Option Nat)} (hk : Known h vs ps) (x : Nat) {a : Option Nat}
    (ha : ∀ d, a = some d → d < h.next) : Known h vs ((x, a) :: ps.drop x) := by
  refine ⟨hk.nodup, hk.live, hk.vars, fun y d e => ?_⟩
  rw [Vars.lookup_cons'] at e
  split at e
  · exact ha d (Option.some.inj e)
  · rw [Vars.lookup_drop] at e
    split at e
    · cases e
    · exact hk.plain y d e

theorem reset_cases (h : Heap) (a b : Option Nat) : (a = b ∧ Unique.reset h a b = .ok (h, b)) ∨
    (a ≠ b ∧ ∃ h', h.delete a = .ok h' ∧ Unique.reset h a b = .ok (h', b)) ∨
    (a ≠ b ∧ h.delete a = .error .ub ∧ Unique.reset h a b = .error .ub) := by
  by_cases e : a = b
  · subst e
    exact .inl ⟨rfl, by simp [Unique.reset]⟩
  · rcases delete_cases h a with ⟨-, x⟩ | ⟨d, -, -, x⟩ | ⟨d, -, -, x⟩
    · exact .inr (.inl ⟨e, _, x, by unfold Unique.reset; rw [if_pos e, x]; rfl⟩)
    · exact .inr (.inl ⟨e, _, x, by unfold Unique.reset; rw [if_pos e, x]; rfl⟩)
    · exact .inr (.inr ⟨e, x, by unfold Unique.reset; rw [if_pos e, x]; rfl⟩)

theorem known_owner {u u' : Unique.World} {ps : Vars (Option Nat)} (hk : Known u.heap u.vars ps) (op : Unique.Op)
    (e : Unique.step u op = .ok u') : Known u'.heap u'.vars ps := by
  cases op with
  | make x =>
    simp only [Unique.step] at e
    split at e <;> cases e
    · exact hk
    · exact hk.new.cons x (fun d hd => by cases hd; exact Nat.lt_succ_self _)
  | makeEmpty x =>
    simp only [Unique.step] at e
    split at e <;> cases e
    · exact hk
    · exact hk.cons x (fun d hd => by cases hd)
  | move x y =>
    simp only [Unique.step] at e
    split at e
    · rename_i d h1 h2
      cases e
      exact (hk.set y (fun d hd => by cases hd)).cons x (fun a ha => hk.vars y a (by rw [h2, ha]))
    · cases e; exact hk
  | moveAssign x y =>
    simp only [Unique.step] at e
    split at e
    · rename_i d d' h1 h2
      split at e
      · rcases hd : u.heap.delete d with _ | h <;> rw [hd] at e <;> cases e
        have hk' := hk.delete hd
        exact (hk'.set x (fun a ha => hk'.vars y a (by rw [h2, ha]))).set y (fun a ha => by cases ha)
      · cases e; exact hk
    · cases e; exact hk
  | reset x =>
    simp only [Unique.step] at e
    split at e
    · rename_i d h1
      rcases reset_cases u.heap d none with ⟨rfl, h⟩ | ⟨-, h', hd, h⟩ | ⟨-, hd, h⟩ <;> rw [h] at e <;> cases e
      · exact hk.set x (fun a ha => by cases ha)
      · exact (hk.delete hd).set x (fun a ha => by cases ha)
    · cases e; exact hk
  | resetNew x =>
    simp only [Unique.step] at e
    split at e
    · rename_i d h1
      rcases reset_cases u.heap.new.1 d u.heap.new.2 with ⟨-, h⟩ | ⟨-, h', hd, h⟩ | ⟨-, hd, h⟩ <;> rw [h] at e <;> cases e
      · exact hk.new.set x (fun a ha => by cases ha; exact Nat.lt_succ_self _)
      · refine (hk.new.delete hd).set x (fun a ha => by
          cases ha
          rcases delete_cases u.heap.new.1 d with ⟨-, e⟩ | ⟨d, -, -, e⟩ | ⟨d, -, -, e⟩ <;> rw [hd] at e <;> cases e <;>
            exact Nat.lt_succ_self _)
    · cases e; exact hk
  | resetSelf x =>
    simp only [Unique.step] at e
    split at e
    · rename_i d h1
      rcases reset_cases u.heap d d with ⟨-, h⟩ | ⟨h, -⟩ | ⟨h, -⟩
      · rw [h] at e
        cases e
        exact hk.set x (fun a ha => hk.vars x a (by rw [h1]; exact congrArg some ha))
      · exact absurd rfl h
      · exact absurd rfl h
    · cases e; exact hk
  | deref x =>
    simp only [Unique.step] at e
    split at e
    · unfold caught at e
      split at e <;> cases e
      exact hk
    · cases e; exact hk
  | destroy x =>
    simp only [Unique.step] at e
    split at e
    · rename_i d h1
      rcases hd : u.heap.delete d with _ | h <;> rw [hd] at e <;> cases e
      exact (hk.delete hd).drop x
    · cases e; exact hk

theorem temporary_cases (w : World) (p : Option Nat) : (∃ h, w.objs.heap.delete p = .ok h ∧
      temporary w p = .ok { w with objs := { w.objs with heap := h } }) ∨
    (w.objs.heap.delete p = .error .ub ∧ temporary w p = .error .ub) := by
  rcases delete_cases w.objs.heap p with ⟨-, x⟩ | ⟨d, -, -, x⟩ | ⟨d, -, -, x⟩
  · exact .inl ⟨_, x, by unfold temporary; rw [x]; rfl⟩
  · exact .inl ⟨_, x, by unfold temporary; rw [x]; rfl⟩
  · exact .inr ⟨x, by unfold temporary; rw [x]; rfl⟩

theorem known_step {w w' : World} (hk : Known w.objs.heap w.objs.vars w.plain) (op : Op) (e : step w op = .ok w') :
    Known w'.objs.heap w'.objs.vars w'.plain := by
  have tmp : ∀ (v : World) p, temporary v p = .ok w' → Known v.objs.heap v.objs.vars v.plain →
      Known w'.objs.heap w'.objs.vars w'.plain := by
    intro v p hv hv'
    rcases temporary_cases v p with ⟨h, hd, x⟩ | ⟨-, x⟩ <;> rw [hv] at x <;> cases x
    exact hv'.delete hd
  cases op with
  | owner op =>
    simp only [step] at e
    rcases hs : Unique.step w.objs op with _ | u <;> rw [hs] at e <;> cases e
    exact known_owner hk op hs
  | get r x =>
    simp only [step] at e
    split at e
    · rename_i d h
      cases e
      exact hk.point r (fun a ha => hk.vars x a (by rw [h]; exact congrArg some ha))
    · cases e; exact hk
  | fresh r =>
    cases e
    exact hk.new.point r (fun d hd => by cases hd; exact Nat.lt_succ_self _)
  | null r =>
    cases e
    exact hk.point r (fun d hd => by cases hd)
  | use r =>
    simp only [step] at e
    split at e
    · split at e <;> cases e
      exact hk
    · cases e
    · cases e; exact hk
  | adopt x r =>
    simp only [step] at e
    split at e
    · rename_i p h1 h2
      cases e
      exact hk.cons x (fun a ha => hk.plain r a (by rw [h2, ha]))
    · cases e; exact hk
  | equal x r =>
    simp only [step] at e
    split at e
    · exact tmp _ _ e hk
    · cases e; exact hk
  | unequal x r =>
    simp only [step] at e
    split at e
    · exact tmp _ _ e hk
    · cases e; exact hk
  | pass r =>
    simp only [step] at e
    split at e
    · exact tmp _ _ e hk
    · cases e; exact hk

theorem known_run : ∀ (ops : List Op) (w w' : World), Known w.objs.heap w.objs.vars w.plain → run w ops = .ok w' →
    Known w'.objs.heap w'.objs.vars w'.plain
  | [], w, w', hk, e => by cases e; exact hk
  | op :: ops, w, w', hk, e => by
    rw [run] at e
    rcases hs : step w op with _ | v <;> rw [hs] at e
    · cases e
    · exact known_run ops v w' (known_step hk op hs) e

theorem known_empty : Known ({} : World).objs.heap ({} : World).objs.vars ({} : World).plain :=
  ⟨List.nodup_nil, by simp, by simp, by simp⟩

/-- A variable owns an object that is no longer there. -/
def Doomed (u : Unique.World) (d : Nat) : Prop := d ∉ u.heap.live ∧ d < u.heap.next ∧ ∃ y, u.vars.lookup y = some (some d)

theorem gone_delete {h h' : Heap} {p : Option Nat} {d : Nat} (hd : h.delete p = .ok h') (hl : d ∉ h.live) :
    d ∉ h'.live ∧ h'.next = h.next ∧ p ≠ some d := by
  rcases delete_cases h p with ⟨rfl, e⟩ | ⟨c, rfl, hc, e⟩ | ⟨c, -, -, e⟩ <;> rw [hd] at e <;> cases e
  · exact ⟨hl, rfl, by simp⟩
  · exact ⟨fun x => hl (List.mem_of_mem_erase x), rfl, fun x => hl (Option.some.inj x ▸ hc)⟩

theorem gone_new {h : Heap} {d : Nat} (hl : d ∉ h.live) (hn : d < h.next) : d ∉ h.new.1.live ∧ d < h.new.1.next := by
  refine ⟨fun x => ?_, Nat.lt_succ_of_lt hn⟩
  rcases List.mem_cons.mp x with rfl | x
  · exact Nat.lt_irrefl _ hn
  · exact hl x

theorem doomed_owner {u : Unique.World} {d : Nat} (hx : Doomed u d) (op : Unique.Op) :
    (∃ u', Unique.step u op = .ok u' ∧ Doomed u' d) ∨ Unique.step u op = .error .ub := by
  obtain ⟨hl, hn, z, hz⟩ := hx
  cases op with
  | make x =>
    left
    simp only [Unique.step]
    split
    · exact ⟨_, rfl, hl, hn, z, hz⟩
    · rename_i hf
      refine ⟨_, rfl, (gone_new hl hn).1, (gone_new hl hn).2, z, ?_⟩
      have : z ≠ x := by rintro rfl; rw [hz] at hf; simp at hf
      simp only [Vars.lookup_cons', if_neg this, hz]
  | makeEmpty x =>
    left
    simp only [Unique.step]
    split
    · exact ⟨_, rfl, hl, hn, z, hz⟩
    · rename_i hf
      refine ⟨_, rfl, hl, hn, z, ?_⟩
      have : z ≠ x := by rintro rfl; rw [hz] at hf; simp at hf
      simp only [Vars.lookup_cons', if_neg this, hz]
  | move x y =>
    left
    simp only [Unique.step]
    split
    · rename_i c h1 h2
      refine ⟨_, rfl, hl, hn, ?_⟩
      by_cases hzy : z = y
      · subst hzy
        rw [hz] at h2
        cases h2
        exact ⟨x, by simp only [Vars.lookup_cons', if_true]⟩
      · have : z ≠ x := by rintro rfl; rw [hz] at h1; simp at h1
        exact ⟨z, by simp only [Vars.lookup_cons', if_neg this, Vars.lookup_set, if_neg hzy, hz]⟩
    · exact ⟨_, rfl, hl, hn, z, hz⟩
  | moveAssign x y =>
    simp only [Unique.step]
    split
    · rename_i c c' h1 h2
      split
      · rename_i hxy
        rcases delete_cases u.heap c with ⟨hc, e⟩ | ⟨k, hc, -, e⟩ | ⟨k, -, -, e⟩
        · left
          obtain ⟨g1, g2, g3⟩ := gone_delete e hl
          rw [e]
          refine ⟨_, rfl, g1, g2 ▸ hn, ?_⟩
          have hzx : z ≠ x := by rintro rfl; rw [hz] at h1; cases h1; exact g3 rfl
          by_cases hzy : z = y
          · subst hzy
            rw [hz] at h2
            cases h2
            exact ⟨x, by simp only [Vars.lookup_set, if_neg hxy, if_true, h1, Option.map_some]⟩
          · exact ⟨z, by simp only [Vars.lookup_set, if_neg hzx, if_neg hzy, hz]⟩
        · left
          obtain ⟨g1, g2, g3⟩ := gone_delete e hl
          rw [e]
          refine ⟨_, rfl, g1, g2 ▸ hn, ?_⟩
          have hzx : z ≠ x := by rintro rfl; rw [hz] at h1; cases h1; exact g3 rfl
          by_cases hzy : z = y
          · subst hzy
            rw [hz] at h2
            cases h2
            exact ⟨x, by simp only [Vars.lookup_set, if_neg hxy, if_true, h1, Option.map_some]⟩
          · exact ⟨z, by simp only [Vars.lookup_set, if_neg hzx, if_neg hzy, hz]⟩
        · right
          rw [e]
          rfl
      · exact .inl ⟨_, rfl, hl, hn, z, hz⟩
    · exact .inl ⟨_, rfl, hl, hn, z, hz⟩
  | reset x =>
    simp only [Unique.step]
    split
    · rename_i c h1
      rcases reset_cases u.heap c none with ⟨hc, e⟩ | ⟨-, h', hd, e⟩ | ⟨-, -, e⟩ <;> rw [e]
      · refine .inl ⟨_, rfl, hl, hn, z, ?_⟩
        have hzx : z ≠ x := by rintro rfl; rw [hz, hc] at h1; cases h1
        simp only [Vars.lookup_set, if_neg hzx, hz]
      · obtain ⟨g1, g2, g3⟩ := gone_delete hd hl
        refine .inl ⟨_, rfl, g1, g2 ▸ hn, z, ?_⟩
        have hzx : z ≠ x := by rintro rfl; rw [hz] at h1; cases h1; exact g3 rfl
        simp only [Vars.lookup_set, if_neg hzx, hz]
      · exact .inr rfl
    · exact .inl ⟨_, rfl, hl, hn, z, hz⟩
  | resetNew x =>
    simp only [Unique.step]
    obtain ⟨hl', hn'⟩ := gone_new hl hn
    split
    · rename_i c h1
      rcases reset_cases u.heap.new.1 c u.heap.new.2 with ⟨hc, e⟩ | ⟨-, h', hd, e⟩ | ⟨-, -, e⟩ <;> rw [e]
      · refine .inl ⟨_, rfl, hl', hn', z, ?_⟩
        have hzx : z ≠ x := by
          rintro rfl
          rw [hz, hc] at h1
          have : d = u.heap.next := Option.some.inj (Option.some.inj h1)
          omega
        simp only [Vars.lookup_set, if_neg hzx, hz]
      · obtain ⟨g1, g2, g3⟩ := gone_delete hd hl'
        refine .inl ⟨_, rfl, g1, g2 ▸ hn', z, ?_⟩
        have hzx : z ≠ x := by rintro rfl; rw [hz] at h1; cases h1; exact g3 rfl
        simp only [Vars.lookup_set, if_neg hzx, hz]
      · exact .inr rfl
    · exact .inl ⟨_, rfl, hl, hn, z, hz⟩
  | resetSelf x =>
    left
    simp only [Unique.step]
    split
    · rename_i c h1
      rcases reset_cases u.heap c c with ⟨-, e⟩ | ⟨e, -⟩ | ⟨e, -⟩
      · rw [e]
        refine ⟨_, rfl, hl, hn, z, ?_⟩
        by_cases hzx : z = x
        · subst hzx
          rw [hz] at h1
          cases h1
          simp [Vars.lookup_set, hz]
        · simp only [Vars.lookup_set, if_neg hzx, hz]
      · exact absurd rfl e
      · exact absurd rfl e
    · exact ⟨_, rfl, hl, hn, z, hz⟩
  | deref x =>
    simp only [Unique.step]
    split
    · rename_i c h1
      cases c with
      | none => exact .inl ⟨_, rfl, hl, hn, z, hz⟩
      | some c =>
        by_cases hc : c ∈ u.heap.live
        · exact .inl ⟨u, by simp [Heap.deref, hc, caught], hl, hn, z, hz⟩
        · exact .inr (by simp [Heap.deref, hc, caught])
    · exact .inl ⟨_, rfl, hl, hn, z, hz⟩
  | destroy x =>
    simp only [Unique.step]
    split
    · rename_i c h1
      rcases hd : u.heap.delete c with e | h'
      · right
        rcases delete_cases u.heap c with ⟨hc, x⟩ | ⟨k, hc, -, x⟩ | ⟨k, -, -, x⟩ <;> rw [hd] at x <;> cases x
        rfl
      · obtain ⟨g1, g2, g3⟩ := gone_delete hd hl
        refine .inl ⟨_, rfl, g1, g2 ▸ hn, z, ?_⟩
        have hzx : z ≠ x := by rintro rfl; rw [hz] at h1; cases h1; exact g3 rfl
        simp only [Vars.lookup_drop, if_neg hzx, hz]
    · exact .inl ⟨_, rfl, hl, hn, z, hz⟩

theorem doomed_step {w : World} {d : Nat} (hx : Doomed w.objs d) (op : Op) :
    (∃ w', step w op = .ok w' ∧ Doomed w'.objs d) ∨ step w op = .error .ub := by
  have tmp : ∀ (v : World) p, v.objs = w.objs → (∃ w', temporary v p = .ok w' ∧ Doomed w'.objs d) ∨ temporary v p = .error .ub := by
    intro v p hv
    obtain ⟨hl, hn, z, hz⟩ := hx
    rcases temporary_cases v p with ⟨h, hd, x⟩ | ⟨-, x⟩
    · rw [hv] at hd
      obtain ⟨g1, g2, -⟩ := gone_delete hd hl
      exact .inl ⟨_, x, g1, g2 ▸ hn, z, by rw [← hz, ← hv]⟩
    · exact .inr x
  cases op with
  | owner op =>
    rcases doomed_owner hx op with ⟨u, e, h⟩ | e
    · exact .inl ⟨_, by simp only [step]; rw [e]; rfl, h⟩
    · exact .inr (by simp only [step]; rw [e]; rfl)
  | get r x =>
    left
    simp only [step]
    split
    · exact ⟨_, rfl, hx⟩
    · exact ⟨_, rfl, hx⟩
  | fresh r =>
    obtain ⟨hl, hn, z, hz⟩ := hx
    exact .inl ⟨_, rfl, (gone_new hl hn).1, (gone_new hl hn).2, z, hz⟩
  | null r => exact .inl ⟨_, rfl, hx⟩
  | use r =>
    simp only [step]
    split
    · split
      · exact .inl ⟨_, rfl, hx⟩
      · exact .inr rfl
    · exact .inr rfl
    · exact .inl ⟨_, rfl, hx⟩
  | adopt x r =>
    left
    simp only [step]
    split
    · rename_i p h1 h2
      obtain ⟨hl, hn, z, hz⟩ := hx
      have hzx : z ≠ x := by rintro rfl; rw [hz] at h1; cases h1
      exact ⟨_, rfl, hl, hn, z, by simp only [Vars.lookup_cons', if_neg hzx, hz]⟩
    · exact ⟨_, rfl, hx⟩
  | equal x r =>
    simp only [step]
    split
    · exact tmp _ _ rfl
    · exact .inl ⟨_, rfl, hx⟩
  | unequal x r =>
    simp only [step]
    split
    · exact tmp _ _ rfl
    · exact .inl ⟨_, rfl, hx⟩
  | pass r =>
    simp only [step]
    split
    · exact tmp _ _ rfl
    · exact .inl ⟨_, rfl, hx⟩

theorem doomed_run : ∀ (ops : List Op) (w : World) (d : Nat), Doomed w.objs d →
    (∃ w', run w ops = .ok w' ∧ Doomed w'.objs d) ∨ run w ops = .error .ub
  | [], w, d, hx => .inl ⟨w, rfl, hx⟩
  | op :: ops, w, d, hx => by
    rcases doomed_step hx op with ⟨w', e, h⟩ | e
    · rw [run, e]
      exact doomed_run ops w' d h
    · exact .inr (by rw [run, e]; rfl)

theorem run_append : ∀ (a b : List Op) (w : World), run w (a ++ b) = (run w a) >>= fun w => run w b
  | [], b, w => rfl
  | op :: a, b, w => by
    rw [List.cons_append, run, run]
    cases h : step w op with
    | error e => rfl
    | ok v => exact run_append a b v

/-! ### `SharedPtr` -/

/-- A counter that no variable knows. -/
def Lost (w : Shared.World) (n : Nat) : Prop :=
  w.counters[n]? = some (some 0) ∧ ∀ x p, w.vars.lookup x = some p → p.count ≠ some n

theorem lost_fetch {cs cs' : List (Option Nat)} {c : Option Nat} {n : Nat} (e : Shared.fetchAdd cs c = .ok cs')
    (hn : cs[n]? = some (some 0)) (hc : c ≠ some n) : cs'[n]? = some (some 0) := by
  unfold Shared.fetchAdd at e
  split at e
  · cases e
  · rename_i k
    split at e <;> cases e
    rw [List.getElem?_set_ne (fun h => hc (by rw [h]))]
    exact hn

theorem lost_retain {cs cs' : List (Option Nat)} {c : Option Nat} {n : Nat} (e : Shared.retain cs c = .ok cs')
    (hn : cs[n]? = some (some 0)) (hc : c ≠ some n) : cs'[n]? = some (some 0) := by
  unfold Shared.retain at e
  split at e
  · exact lost_fetch e hn hc
  · cases e; exact hn

theorem lost_release {h h' : Heap} {cs cs' : List (Option Nat)} {p : Shared.Ptr} {n : Nat}
    (e : Shared.release h cs p = .ok (h', cs')) (hn : cs[n]? = some (some 0)) (hc : p.count ≠ some n) :
    cs'[n]? = some (some 0) := by
  unfold Shared.release at e
  split at e
  · cases e; exact hn
  · rename_i c hpc
    have hcn : c ≠ n := fun h => hc (by rw [hpc, h])
    split at e
    · split at e
      · rcases hd : h.delete p.data with _ | h2 <;> rw [hd] at e <;> cases e
        rw [List.getElem?_set_ne hcn]
        exact hn
      · cases e
        rw [List.getElem?_set_ne hcn]
        exact hn
    · cases e

theorem lost_own {cs : List (Option Nat)} {n : Nat} (d : Option Nat) (hn : cs[n]? = some (some 0)) :
    (Shared.own cs d).1[n]? = some (some 0) ∧ (Shared.own cs d).2.count ≠ some n := by
  have hlt : n < cs.length := by
    rcases Nat.lt_or_ge n cs.length with h | h
    · exact h
    · rw [List.getElem?_eq_none h] at hn
      cases hn
  cases d with
  | none => exact ⟨hn, by simp [Shared.own]⟩
  | some d =>
    refine ⟨?_, ?_⟩
    · simp only [Shared.own]
      rw [List.getElem?_append_left hlt, hn]
    · simp only [Shared.own, ne_eq, Option.some.injEq]
      omega

theorem lost_reset {h h' : Heap} {cs cs' : List (Option Nat)} {p p' : Shared.Ptr} {d : Option Nat} {n : Nat}
    (e : Shared.reset h cs p d = .ok (h', cs', p')) (hn : cs[n]? = some (some 0)) (hc : p.count ≠ some n) :
    cs'[n]? = some (some 0) ∧ p'.count ≠ some n := by
  unfold Shared.reset at e
  split at e
  · rcases hr : Shared.release h cs p with _ | ⟨h2, cs2⟩ <;> rw [hr] at e <;> cases e
    exact lost_own d (lost_release hr hn hc)
  · cases e; exact ⟨hn, hc⟩

theorem lost_set {v : Vars Shared.Ptr} {n : Nat} (hv : ∀ x p, v.lookup x = some p → p.count ≠ some n) (x : Nat) {a : Shared.Ptr}
    (ha : a.count ≠ some n) : ∀ y p, (v.set x a).lookup y = some p → p.count ≠ some n := by
  intro y p e
  rw [Vars.lookup_set] at e
  split at e
  · rcases hx : v.lookup x with _ | b <;> rw [hx] at e
    · cases e
    · cases e; exact ha
  · exact hv y p e

theorem lost_cons {v : Vars Shared.Ptr} {n : Nat} (hv : ∀ x p, v.lookup x = some p → p.count ≠ some n) (x : Nat) {a : Shared.Ptr}
    (ha : a.count ≠ some n) : ∀ y p, List.lookup y ((x, a) :: v) = some p → p.count ≠ some n := by
  intro y p e
  rw [Vars.lookup_cons'] at e
  split at e
  · cases e; exact ha
  · exact hv y p e

theorem lost_drop {v : Vars Shared.Ptr} {n : Nat} (hv : ∀ x p, v.lookup x = some p → p.count ≠ some n) (x : Nat) :
    ∀ y p, (v.drop x).lookup y = some p → p.count ≠ some n := by
  intro y p e
  rw [Vars.lookup_drop] at e
  split at e
  · cases e
  · exact hv y p e

theorem lost_step {w w' : Shared.World} {n : Nat} (hl : Lost w n) (op : Shared.Op) (e : Shared.step w op = .ok w') : Lost w' n := by
  obtain ⟨hn, hv⟩ := hl
  have h0 : ({} : Shared.Ptr).count ≠ some n := by simp
  cases op with
  | make x =>
    simp only [Shared.step] at e
    split at e <;> cases e
    · exact ⟨hn, hv⟩
    · exact ⟨(lost_own _ hn).1, lost_cons hv x (lost_own _ hn).2⟩
  | makeEmpty x =>
    simp only [Shared.step] at e
    split at e <;> cases e
    · exact ⟨hn, hv⟩
    · exact ⟨hn, lost_cons hv x h0⟩
  | copy x y =>
    simp only [Shared.step] at e
    split at e
    · rename_i p h1 h2
      rcases hf : Shared.fetchAdd w.counters p.count with _ | cs <;> rw [hf] at e <;> cases e
      exact ⟨lost_fetch hf hn (hv y p h2), lost_cons hv x (hv y p h2)⟩
    · cases e; exact ⟨hn, hv⟩
  | move x y =>
    simp only [Shared.step] at e
    split at e
    · rename_i p h1 h2
      cases e
      exact ⟨hn, lost_cons (lost_set hv y h0) x (hv y p h2)⟩
    · cases e; exact ⟨hn, hv⟩
  | assign x y =>
    simp only [Shared.step] at e
    split at e
    · rename_i p q h1 h2
      split at e
      · rcases hr : Shared.release w.heap w.counters p with _ | ⟨h', cs⟩ <;> rw [hr] at e
        · cases e
        · simp only [bind, Except.bind] at e
          rcases hf : Shared.retain cs q.count with _ | cs' <;> rw [hf] at e <;> cases e
          exact ⟨lost_retain hf (lost_release hr hn (hv x p h1)) (hv y q h2), lost_set hv x (hv y q h2)⟩
      · cases e; exact ⟨hn, hv⟩
    · cases e; exact ⟨hn, hv⟩
  | moveAssign x y =>
    simp only [Shared.step] at e
    split at e
    · rename_i p q h1 h2
      split at e
      · rcases hr : Shared.release w.heap w.counters p with _ | ⟨h', cs⟩ <;> rw [hr] at e <;> cases e
        exact ⟨lost_release hr hn (hv x p h1), lost_set (lost_set hv x (hv y q h2)) y h0⟩
      · cases e; exact ⟨hn, hv⟩
    · cases e; exact ⟨hn, hv⟩
  | reset x =>
    simp only [Shared.step] at e
    split at e
    · rename_i p h1
      rcases hr : Shared.reset w.heap w.counters p none with _ | ⟨h', cs, q⟩ <;> rw [hr] at e <;> cases e
      exact ⟨(lost_reset hr hn (hv x p h1)).1, lost_set hv x (lost_reset hr hn (hv x p h1)).2⟩
    · cases e; exact ⟨hn, hv⟩
  | resetNew x =>
    simp only [Shared.step] at e
    split at e
    · rename_i p h1
      rcases hr : Shared.reset w.heap.new.1 w.counters p w.heap.new.2 with _ | ⟨h', cs, q⟩ <;> rw [hr] at e <;> cases e
      exact ⟨(lost_reset hr hn (hv x p h1)).1, lost_set hv x (lost_reset hr hn (hv x p h1)).2⟩
    · cases e; exact ⟨hn, hv⟩
  | deref x =>
    simp only [Shared.step] at e
    split at e
    · unfold caught at e
      split at e <;> cases e
      exact ⟨hn, hv⟩
    · cases e; exact ⟨hn, hv⟩
  | destroy x =>
    simp only [Shared.step] at e
    split at e
    · rename_i p h1
      rcases hr : Shared.release w.heap w.counters p with _ | ⟨h', cs⟩ <;> rw [hr] at e <;> cases e
      exact ⟨lost_release hr hn (hv x p h1), lost_drop hv x⟩
    · cases e; exact ⟨hn, hv⟩

theorem lost_run : ∀ (ops : List Shared.Op) (w w' : Shared.World) (n : Nat), Lost w n → Shared.run w ops = .ok w' → Lost w' n
  | [], w, w', n, hl, e => by cases e; exact hl
  | op :: ops, w, w', n, hl, e => by
    rw [Shared.run] at e
    rcases hs : Shared.step w op with _ | v <;> rw [hs] at e
    · cases e
    · exact lost_run ops v w' n (lost_step hl op hs) e

/-- Variables know only counters that have been made. -/
def Bounded (w : Shared.World) : Prop := ∀ x p, w.vars.lookup x = some p → ∀ c, p.count = some c → c < w.counters.length

theorem length_fetch {cs cs' : List (Option Nat)} {c : Option Nat} (e : Shared.fetchAdd cs c = .ok cs') : cs'.length = cs.length := by
  unfold Shared.fetchAdd at e
  split at e
  · cases e
  · split at e <;> cases e
    exact List.length_set

theorem length_retain {cs cs' : List (Option Nat)} {c : Option Nat} (e : Shared.retain cs c = .ok cs') : cs'.length = cs.length := by
  unfold Shared.retain at e
  split at e
  · exact length_fetch e
  · cases e; rfl

theorem length_release {h h' : Heap} {cs cs' : List (Option Nat)} {p : Shared.Ptr} (e : Shared.release h cs p = .ok (h', cs')) :
    cs'.length = cs.length := by
  unfold Shared.release at e
  split at e
  · cases e; rfl
  · split at e
    · split at e
      · rcases hd : h.delete p.data with _ | h2 <;> rw [hd] at e <;> cases e
        exact List.length_set
      · cases e
        exact List.length_set
    · cases e

theorem bounded_own (cs : List (Option Nat)) (d : Option Nat) : cs.length ≤ (Shared.own cs d).1.length ∧
    ∀ c, (Shared.own cs d).2.count = some c → c < (Shared.own cs d).1.length := by
  cases d with
  | none => exact ⟨Nat.le_refl _, fun c h => by cases h⟩
  | some d =>
    refine ⟨by simp [Shared.own], fun c h => ?_⟩
    simp only [Shared.own, Option.some.injEq] at h
    subst h
    simp [Shared.own]

theorem bounded_reset {h h' : Heap} {cs cs' : List (Option Nat)} {p p' : Shared.Ptr} {d : Option Nat}
    (e : Shared.reset h cs p d = .ok (h', cs', p')) (hp : ∀ c, p.count = some c → c < cs.length) :
    cs.length ≤ cs'.length ∧ ∀ c, p'.count = some c → c < cs'.length := by
  unfold Shared.reset at e
  split at e
  · rcases hr : Shared.release h cs p with _ | ⟨h2, cs2⟩ <;> rw [hr] at e <;> cases e
    have := bounded_own cs2 d
    rw [length_release hr] at this
    exact this
  · cases e; exact ⟨Nat.le_refl _, hp⟩

theorem bounded_set {v : Vars Shared.Ptr} {n m : Nat} (hv : ∀ x p, v.lookup x = some p → ∀ c, p.count = some c → c < n) (h : n ≤ m)
    (x : Nat) {a : Shared.Ptr} (ha : ∀ c, a.count = some c → c < m) :
    ∀ y p, (v.set x a).lookup y = some p → ∀ c, p.count = some c → c < m := by
  intro y p e
  rw [Vars.lookup_set] at e
  split at e
  · rcases hx : v.lookup x with _ | b <;> rw [hx] at e
    · cases e
    · cases e; exact ha
  · exact fun c hc => Nat.lt_of_lt_of_le (hv y p e c hc) h

theorem bounded_cons {v : Vars Shared.Ptr} {n m : Nat} (hv : ∀ x p, v.lookup x = some p → ∀ c, p.count = some c → c < n) (h : n ≤ m)
    (x : Nat) {a : Shared.Ptr} (ha : ∀ c, a.count = some c → c < m) :
    ∀ y p, List.lookup y ((x, a) :: v) = some p → ∀ c, p.count = some c → c < m := by
  intro y p e
  rw [Vars.lookup_cons'] at e
  split at e
  · cases e; exact ha
  · exact fun c hc => Nat.lt_of_lt_of_le (hv y p e c hc) h

theorem bounded_step {w w' : Shared.World} (hv : Bounded w) (op : Shared.Op) (e : Shared.step w op = .ok w') : Bounded w' := by
  have h0 : ∀ m c, ({} : Shared.Ptr).count = some c → c < m := fun m c h => by cases h
  cases op with
  | make x =>
    simp only [Shared.step] at e
    split at e <;> cases e
    · exact hv
    · exact bounded_cons hv (bounded_own _ _).1 x (bounded_own _ _).2
  | makeEmpty x =>
    simp only [Shared.step] at e
    split at e <;> cases e
    · exact hv
    · exact bounded_cons hv (Nat.le_refl _) x (h0 _)
  | copy x y =>
    simp only [Shared.step] at e
    split at e
    · rename_i p h1 h2
      rcases hf : Shared.fetchAdd w.counters p.count with _ | cs <;> rw [hf] at e <;> cases e
      have hl := length_fetch hf
      exact bounded_cons hv (Nat.le_of_eq hl.symm) x (hl ▸ hv y p h2)
    · cases e; exact hv
  | move x y =>
    simp only [Shared.step] at e
    split at e
    · rename_i p h1 h2
      cases e
      exact bounded_cons (bounded_set hv (Nat.le_refl _) y (h0 _)) (Nat.le_refl _) x (hv y p h2)
    · cases e; exact hv
  | assign x y =>
    simp only [Shared.step] at e
    split at e
    · rename_i p q h1 h2
      split at e
      · rcases hr : Shared.release w.heap w.counters p with _ | ⟨h', cs⟩ <;> rw [hr] at e
        · cases e
        · simp only [bind, Except.bind] at e
          rcases hf : Shared.retain cs q.count with _ | cs' <;> rw [hf] at e <;> cases e
          have hl : cs'.length = w.counters.length := (length_retain hf).trans (length_release hr)
          exact bounded_set hv (Nat.le_of_eq hl.symm) x (hl ▸ hv y q h2)
      · cases e; exact hv
    · cases e; exact hv
  | moveAssign x y =>
    simp only [Shared.step] at e
    split at e
    · rename_i p q h1 h2
      split at e
      · rcases hr : Shared.release w.heap w.counters p with _ | ⟨h', cs⟩ <;> rw [hr] at e <;> cases e
        have hl := length_release hr
        exact bounded_set (bounded_set hv (Nat.le_of_eq hl.symm) x (hl ▸ hv y q h2)) (Nat.le_refl _) y (h0 _)
      · cases e; exact hv
    · cases e; exact hv
  | reset x =>
    simp only [Shared.step] at e
    split at e
    · rename_i p h1
      rcases hr : Shared.reset w.heap w.counters p none with _ | ⟨h', cs, q⟩ <;> rw [hr] at e <;> cases e
      exact bounded_set hv (bounded_reset hr (hv x p h1)).1 x (bounded_reset hr (hv x p h1)).2
    · cases e; exact hv
  | resetNew x =>
    simp only [Shared.step] at e
    split at e
    · rename_i p h1
      rcases hr : Shared.reset w.heap.new.1 w.counters p w.heap.new.2 with _ | ⟨h', cs, q⟩ <;> rw [hr] at e <;> cases e
      exact bounded_set hv (bounded_reset hr (hv x p h1)).1 x (bounded_reset hr (hv x p h1)).2
    · cases e; exact hv
  | deref x =>
    simp only [Shared.step] at e
    split at e
    · unfold caught at e
      split at e <;> cases e
      exact hv
    · cases e; exact hv
  | destroy x =>
    simp only [Shared.step] at e
    split at e
    · rename_i p h1
      rcases hr : Shared.release w.heap w.counters p with _ | ⟨h', cs⟩ <;> rw [hr] at e <;> cases e
      intro y q hq c hc
      rw [length_release hr]
      rw [Vars.lookup_drop] at hq
      split at hq
      · cases hq
      · exact hv y q hq c hc
    · cases e; exact hv

theorem bounded_run : ∀ (ops : List Shared.Op) (w w' : Shared.World), Bounded w → Shared.run w ops = .ok w' → Bounded w'
  | [], w, w', hl, e => by cases e; exact hl
  | op :: ops, w, w', hl, e => by
    rw [Shared.run] at e
    rcases hs : Shared.step w op with _ | v <;> rw [hs] at e
    · cases e
    · exact bounded_run ops v w' (bounded_step hl op hs) e

end PtrTemp

/-! ## C162 -/

/-- C162, `UniquePtr`, exactly: `x == r`, `x != r` and `f(r)` for a plain pointer `r` compare as the pointers do and change nothing else
if `r` is null; if `r` points to an object, the object is destroyed; if it is not there any more, the behaviour is undefined. -/
theorem C162_unique_partial (w : World) (x r : Nat) (d p : Option Nat) (hx : w.objs.vars.lookup x = some d)
    (hr : w.plain.lookup r = some p) :
    (p = none → step w (.equal x r) = .ok { w with log := decide (d = none) :: w.log } ∧
      step w (.unequal x r) = .ok { w with log := decide (d ≠ none) :: w.log } ∧ step w (.pass r) = .ok w) ∧
    ∀ q, p = some q →
      (q ∈ w.objs.heap.live →
        let objs := { w.objs with heap := { w.objs.heap with live := w.objs.heap.live.erase q, dead := q :: w.objs.heap.dead } }
        step w (.equal x r) = .ok { w with objs := objs, log := decide (d = some q) :: w.log } ∧
        step w (.unequal x r) = .ok { w with objs := objs, log := decide (d ≠ some q) :: w.log } ∧
        step w (.pass r) = .ok { w with objs := objs }) ∧
      (q ∉ w.objs.heap.live → step w (.equal x r) = .error .ub ∧ step w (.unequal x r) = .error .ub ∧
        step w (.pass r) = .error .ub) := by
  constructor
  · rintro rfl
    refine ⟨?_, ?_, ?_⟩ <;> simp only [step, hx, hr] <;> rfl
  · rintro q rfl
    constructor
    · intro hq
      refine ⟨?_, ?_, ?_⟩ <;> simp only [step, hx, hr, temporary, Heap.delete, if_pos hq] <;> rfl
    · intro hq
      refine ⟨?_, ?_, ?_⟩ <;> simp only [step, hx, hr, temporary, Heap.delete, if_neg hq] <;> rfl

example : run {} [.fresh 0, .owner (.make 1), .equal 1 0] =
    .ok { objs := { heap := { next := 2, live := [1], dead := [0] }, vars := [(1, some 1)] }, plain := [(0, some 0)], log := [false] } := by
  decide

/-- C162: to give a plain pointer for a parameter or an operand is to make an owner from it and to destroy this owner. -/
theorem C162_as_owner (w : World) (r t : Nat) (ht : w.objs.vars.lookup t = none) :
    (run w [.pass r]).map (·.objs) = (run w [.adopt t r, .owner (.destroy t)]).map (·.objs) := by
  cases hr : w.plain.lookup r with
  | none =>
    simp only [run, step, hr, ht]
    simp [Unique.step, ht, Except.map, bind, Except.bind, pure, Except.pure]
  | some p =>
    have hd : Vars.drop ((t, p) :: w.objs.vars) t = w.objs.vars := by
      have h1 : t ∉ w.objs.vars.map Prod.fst := by
        intro h
        obtain ⟨⟨a, b⟩, hab, rfl⟩ := List.mem_map.mp h
        have := List.lookup_eq_none_iff.mp ht (a, b) hab
        simp at this
      have := Vars.drop_absent h1
      unfold Vars.drop at this ⊢
      simpa using this
    simp only [run, step, hr, ht, Unique.step]
    rcases PtrTemp.delete_cases w.objs.heap p with ⟨-, e⟩ | ⟨q, -, -, e⟩ | ⟨q, -, -, e⟩ <;>
      simp [temporary, e, Except.map, bind, Except.bind, pure, Except.pure, hd]

/-- C162 fails: a program that compares a `UniquePtr` with the pointer to its own object, or gives this pointer to a function that takes
an owner, cannot end well. Whatever it does before and afterwards, the behaviour is undefined at some point, or some `UniquePtr` still
owns the destroyed object; so it is undefined at the latest when the scopes of all variables have ended. -/
theorem C162_self_fails (before after : List Op) (w : World) (x r d : Nat) (hw : run {} before = .ok w)
    (hx : w.objs.vars.lookup x = some (some d)) (op : Op) (hop : op ∈ [Op.equal x r, .unequal x r, .pass r]) :
    (∃ w', run {} (before ++ [.get r x, op] ++ after) = .ok w' ∧ d ∉ w'.objs.heap.live ∧
      ∃ y, w'.objs.vars.lookup y = some (some d)) ∨
    run {} (before ++ [.get r x, op] ++ after) = .error .ub := by
  have hk := PtrTemp.known_run before {} w PtrTemp.known_empty hw
  have hdn := hk.vars x d hx
  have hg : step w (.get r x) = .ok (point w r (some d)) := by simp only [step, hx]; rfl
  have hp : (point w r (some d)).plain.lookup r = some (some d) := by simp [point]
  have hpx : (point w r (some d)).objs.vars.lookup x = some (some d) := hx
  rw [PtrTemp.run_append, PtrTemp.run_append, hw]
  simp only [bind, Except.bind, run, hg]
  obtain ⟨-, h2⟩ := C162_unique_partial (point w r (some d)) x r (some d) (some d) hpx hp
  obtain ⟨h3, h4⟩ := h2 d rfl
  by_cases hl : d ∈ w.objs.heap.live
  · obtain ⟨e1, e2, e3⟩ := h3 hl
    have : ∃ v, step (point w r (some d)) op = .ok v ∧ PtrTemp.Doomed v.objs d := by
      have hnot : d ∉ w.objs.heap.live.erase d := fun h => by
        rw [hk.nodup.mem_erase_iff] at h
        exact h.1 rfl
      simp only [List.mem_cons, List.not_mem_nil, or_false] at hop
      rcases hop with rfl | rfl | rfl
      · exact ⟨_, e1, hnot, hdn, x, hx⟩
      · exact ⟨_, e2, hnot, hdn, x, hx⟩
      · exact ⟨_, e3, hnot, hdn, x, hx⟩
    obtain ⟨v, e, hv⟩ := this
    rw [e]
    rcases PtrTemp.doomed_run after v d hv with ⟨w', a, b⟩ | a
    · exact .inl ⟨w', a, b.1, b.2.2⟩
    · exact .inr a
  · obtain ⟨e1, e2, e3⟩ := h4 hl
    right
    simp only [List.mem_cons, List.not_mem_nil, or_false] at hop
    rcases hop with rfl | rfl | rfl
    · rw [e1]
    · rw [e2]
    · rw [e3]

example : run {} [.owner (.make 0), .get 1 0, .equal 0 1, .owner (.destroy 0)] = .error .ub := by decide

/-- C162 fails: an object that nobody owns is gone after a comparison with the pointer to it. -/
theorem C162_borrowed_fails (before : List Op) (w : World) (x r q : Nat) (d : Option Nat) (hw : run {} before = .ok w)
    (hx : w.objs.vars.lookup x = some d) (hr : w.plain.lookup r = some (some q)) :
    run {} (before ++ [.equal x r, .use r]) = .error .ub := by
  have hk := PtrTemp.known_run before {} w PtrTemp.known_empty hw
  rw [PtrTemp.run_append, hw]
  simp only [bind, Except.bind, run]
  obtain ⟨h3, h4⟩ := (C162_unique_partial w x r d (some q) hx hr).2 q rfl
  by_cases hl : q ∈ w.objs.heap.live
  · rw [(h3 hl).1]
    have hnot : q ∉ w.objs.heap.live.erase q := fun h => by
      rw [hk.nodup.mem_erase_iff] at h
      exact h.1 rfl
    simp only [step, hr, if_neg hnot]
  · rw [(h4 hl).1]

example : run {} [.fresh 0, .owner (.makeEmpty 1), .use 0] ≠ .error .ub := by decide

/-- C162, `SharedPtr`: the comparison with a plain pointer says whether the pointers are equal and destroys no object. Partial:
`C162_shared_fails`. -/
theorem C162_shared_partial (w : Shared.World) (p : Shared.Ptr) (r : Option Nat) : ∃ w', sharedEqual w p r = .ok (w', decide (p.data = r)) ∧
    w'.heap = w.heap ∧ w'.vars = w.vars ∧ (w' = w ↔ r = none) := by
  cases r with
  | none => exact ⟨w, rfl, rfl, rfl, by simp⟩
  | some q =>
    refine ⟨{ w with counters := w.counters ++ [some 0] }, ?_, rfl, rfl, ?_⟩
    · have hone : wsub 1 1 = 0 := by decide
      simp [sharedEqual, Shared.own, Shared.release, Shared.eq, hone, bind, Except.bind, pure, Except.pure]
      rfl
    · constructor
      · intro h
        have := congrArg (fun w => w.counters.length) h
        simp at this
      · intro h
        cases h

/-- C162 fails for `SharedPtr`: every comparison with a pointer to an object loses a counter for good: it is never deleted, whatever the
program does afterwards. -/
theorem C162_shared_fails (before after : List Shared.Op) (w w' v : Shared.World) (p : Shared.Ptr) (q : Nat) (b : Bool)
    (hw : Shared.run {} before = .ok w) (he : sharedEqual w p (some q) = .ok (v, b)) (ha : Shared.run v after = .ok w') :
    w'.counters[w.counters.length]? = some (some 0) := by
  have hv : v = { w with counters := w.counters ++ [some 0] } := by
    have : sharedEqual w p (some q) = .ok ({ w with counters := w.counters ++ [some 0] }, decide (p.data = some q)) := by
      have hone : wsub 1 1 = 0 := by decide
      simp [sharedEqual, Shared.own, Shared.release, Shared.eq, hone, bind, Except.bind, pure, Except.pure]
      rfl
    rw [he] at this
    cases this
    rfl
  subst hv
  have hc := PtrTemp.bounded_run before {} w (by intro x p h; simp at h) hw
  refine (PtrTemp.lost_run after _ w' w.counters.length ⟨by simp, fun x p hx hp => ?_⟩ ha).1
  exact Nat.lt_irrefl _ (hc x p hx _ hp)

/-- The pointers of both theorems: a `SharedPtr` compared with its own `Get()`. -/
example : ∃ w, Shared.run {} [.make 0] = .ok w ∧ ∃ v, sharedEqual w ⟨some 0, some 0⟩ (some 0) = .ok (v, true) ∧
    v.counters = [some 1, some 0] := ⟨_, rfl, _, rfl, rfl⟩

/-- C162, `WeakPtr`: comparison with a `SharedPtr` that owns something says whether the pointers are equal and changes nothing. Partial:
`C162_weak_fails`. -/
theorem C162_weak_partial (w : Shared.World) (y x : Shared.Ptr) (c n : Nat) (hx : x.count = some c)
    (hc : w.counters[c]? = some (some n)) (hn : n + 1 < twoPow64) : weakEqual w y x = .ok (w, decide (y.data = x.data)) := by
  have hlt : c < w.counters.length := by
    rcases Nat.lt_or_ge c w.counters.length with h | h
    · exact h
    · rw [List.getElem?_eq_none h] at hc
      cases hc
  have h1 : wadd n 1 = n + 1 := Nat.mod_eq_of_lt hn
  have h2 : wsub (n + 1) 1 = n := by
    unfold wsub
    have : 1 % twoPow64 = 1 := by decide
    rw [this, show n + 1 + (twoPow64 - 1) = n + twoPow64 by omega, Nat.add_mod_right, Nat.mod_eq_of_lt (by omega)]
  have h3 : w.counters.set c (some n) = w.counters := by
    apply List.ext_getElem?
    intro i
    by_cases hi : c = i
    · subst hi
      rw [List.getElem?_set_self hlt, hc]
    · rw [List.getElem?_set_ne hi]
  have h4 : Shared.fetchAdd w.counters x.count = .ok (w.counters.set c (some (n + 1))) := by
    simp only [Shared.fetchAdd, hx, hc, h1]
  have h5 : Shared.release w.heap (w.counters.set c (some (n + 1))) x = .ok (w.heap, w.counters) := by
    simp only [Shared.release, hx, List.getElem?_set_self hlt, List.set_set, h2, h3]
    rfl
  unfold weakEqual
  rw [h4]
  simp only [bind, Except.bind, h5]
  rfl

/-- C162 fails: the comparison of a `WeakPtr` with an empty `SharedPtr` has undefined behaviour, whatever the `WeakPtr` holds. -/
theorem C162_weak_fails (w : Shared.World) (y : Shared.Ptr) : weakEqual w y {} = .error .ub := rfl

example : weakEqual { counters := [some 1], vars := [(0, ⟨some 0, some 0⟩)], heap := { next := 1, live := [0] } } ⟨some 0, some 0⟩ {} =
    .error .ub := rfl

end Caitlyn
