import Verif.Proofs.JsonOverlap
import Verif.Proofs.JsonStrings
import Verif.Spec.JsonRefs

/-!
# Where the places of `JsonData` variables are after a statement
-/

namespace Caitlyn.JsonNodes
open Spec
variable {F : Type}

/-! ## Nodes that are gone stay gone -/

/-- The node has been alive and is not any more. -/
def Dead (x : Nat) (h : Heap F) : Prop := x < h.next ∧ h.cells x = none

theorem Dead.write {x y : Nat} {h h' : Heap F} {c : Cell F} (d : Dead x h) (e : write h y c = .ok h') : Dead x h' := by
  rw [JsonNodes.write] at e
  split at e
  · next c' hc =>
    cases e
    refine ⟨d.1, ?_⟩
    simp only [upd]
    rw [if_neg (fun (c : x = y) => by rw [← c, d.2] at hc; cases hc)]
    exact d.2
  · cases e

theorem Dead.free {x y : Nat} {h h' : Heap F} (d : Dead x h) (e : free h y = .ok h') : Dead x h' := by
  rw [JsonNodes.free] at e
  split at e
  · cases e
    refine ⟨d.1, ?_⟩
    simp only [upd]
    split
    · rfl
    · exact d.2
  · cases e

theorem Dead.alloc {x : Nat} {h : Heap F} (d : Dead x h) : Dead x (alloc h).1 := by
  have := d.1
  refine ⟨by simp only [JsonNodes.alloc]; omega, ?_⟩
  simp only [JsonNodes.alloc, upd]
  rw [if_neg (by omega)]
  exact d.2

theorem Dead.foldlM {α : Type} {x : Nat} {step : Heap F → α → Res (Heap F)}
    (hs : ∀ h a h', Dead x h → step h a = .ok h' → Dead x h') (l : List α) :
    ∀ {h h' : Heap F}, Dead x h → l.foldlM step h = .ok h' → Dead x h' := by
  induction l with
  | nil => intro h h' d e; cases e; exact d
  | cons a l ih =>
    intro h h' d e
    rw [List.foldlM_cons] at e
    obtain ⟨h1, e1, e2⟩ := bind_ok e
    exact ih (hs _ _ _ d e1) e2

theorem Dead.delete {x : Nat} (n : Nat) : ∀ (h : Heap F) (y : Nat) (h' : Heap F), Dead x h → deleteNode n h y = .ok h' → Dead x h' := by
  induction n with
  | zero => intro h y h' _ e; cases e
  | succ n ih =>
    intro h y h' d e
    rw [deleteNode] at e
    obtain ⟨c, _, e⟩ := bind_ok e
    obtain ⟨h1, e1, e2⟩ := bind_ok e
    exact (Dead.foldlM ih _ d e1).free e2

theorem Dead.destroy {x y : Nat} {h h' : Heap F} (d : Dead x h) (e : destroyUnion h y = .ok h') : Dead x h' := by
  rw [destroyUnion] at e
  obtain ⟨c, _, e⟩ := bind_ok e
  exact Dead.foldlM (Dead.delete _) _ d e

theorem Dead.pushItem {x y z : Nat} {h h' : Heap F} (d : Dead x h) (e : pushItem h y z = .ok h') : Dead x h' := by
  rw [JsonNodes.pushItem] at e
  obtain ⟨c, _, e⟩ := bind_ok e
  cases c with
  | arr l => exact d.write e
  | _ => cases e

theorem Dead.pushMember {x y z : Nat} {k : Str} {h h' : Heap F} (d : Dead x h) (e : pushMember h y k z = .ok h') : Dead x h' := by
  rw [JsonNodes.pushMember] at e
  obtain ⟨c, _, e⟩ := bind_ok e
  cases c with
  | obj l => exact d.write e
  | _ => cases e

theorem Dead.copy {x : Nat} (n : Nat) : ∀ (h : Heap F) (dst src : Nat) (h' : Heap F), Dead x h → copyUnion n h dst src = .ok h' →
    Dead x h' := by
  induction n with
  | zero => intro h dst src h' _ e; cases e
  | succ n ih =>
    intro h dst src h' d e
    rw [copyUnion] at e
    obtain ⟨c, _, e⟩ := bind_ok e
    cases c with
    | arr l =>
      obtain ⟨h1, e1, e⟩ := bind_ok e
      refine Dead.foldlM (fun h a h' d e => ?_) _ (d.write e1) e
      rw [copyItem] at e
      obtain ⟨h2, e2, e⟩ := bind_ok e
      exact (ih _ _ _ _ d.alloc e2).pushItem e
    | obj l =>
      obtain ⟨h1, e1, e⟩ := bind_ok e
      refine Dead.foldlM (fun h a h' d e => ?_) _ (d.write e1) e
      rw [copyMember] at e
      obtain ⟨h2, e2, e⟩ := bind_ok e
      exact (ih _ _ _ _ d.alloc e2).pushMember e
    | str s => exact Dead.write (h := { h with strings := h.strings + 1 }) d e
    | _ => exact d.write e

theorem Dead.moveUnion {x y z : Nat} {h h' : Heap F} (d : Dead x h) (e : moveUnion h y z = .ok h') : Dead x h' := by
  rw [JsonNodes.moveUnion] at e
  obtain ⟨c, _, e⟩ := bind_ok e
  obtain ⟨h1, e1, e⟩ := bind_ok e
  exact (d.write e1).write e

theorem Dead.newCopy {x y : Nat} {h : Heap F} {r : Heap F × Nat} (d : Dead x h) (e : newCopy h y = .ok r) : Dead x r.1 := by
  rw [JsonNodes.newCopy] at e
  obtain ⟨h1, e1, e⟩ := bind_ok e
  cases e
  exact Dead.copy _ _ _ _ _ d.alloc e1

theorem Dead.newMove {x y : Nat} {h : Heap F} {r : Heap F × Nat} (d : Dead x h) (e : newMove h y = .ok r) : Dead x r.1 := by
  rw [JsonNodes.newMove] at e
  obtain ⟨h1, e1, e⟩ := bind_ok e
  cases e
  exact d.alloc.moveUnion e1

theorem Dead.newScalar {x : Nat} {h : Heap F} {v : Scalar F} {r : Heap F × Nat} (d : Dead x h) (e : newScalar h v = .ok r) :
    Dead x r.1 := by
  rw [JsonNodes.newScalar] at e
  obtain ⟨h1, e1, e⟩ := bind_ok e
  cases e
  exact (d.alloc.write e1 : Dead x h1)

theorem Dead.assignCopy {x y z : Nat} {h h' : Heap F} (d : Dead x h) (e : assignCopy h y z = .ok h') : Dead x h' := by
  rw [JsonNodes.assignCopy] at e
  by_cases c : y = z
  · rw [if_pos c] at e; cases e; exact d
  · rw [if_neg c] at e
    obtain ⟨h1, e1, e⟩ := bind_ok e
    exact Dead.copy _ _ _ _ _ (d.destroy e1) e

theorem Dead.assignMove {x y z : Nat} {h h' : Heap F} (d : Dead x h) (e : assignMove h y z = .ok h') : Dead x h' := by
  rw [JsonNodes.assignMove] at e
  by_cases c : y = z
  · rw [if_pos c] at e; cases e; exact d
  · rw [if_neg c] at e
    obtain ⟨h1, e1, e⟩ := bind_ok e
    exact (d.destroy e1).moveUnion e

theorem Dead.setType {x y : Nat} {c : Cell F} {h h' : Heap F} (d : Dead x h) (e : setType h y c = .ok h') : Dead x h' := by
  rw [JsonNodes.setType] at e
  obtain ⟨old, _, e⟩ := bind_ok e
  by_cases t : old.type = c.type
  · rw [if_pos t] at e; cases e; exact d
  · rw [if_neg t] at e
    obtain ⟨h1, e1, e⟩ := bind_ok e
    exact (d.destroy e1).write e

theorem Dead.assignScalar {x y : Nat} {v : Scalar F} {h h' : Heap F} (d : Dead x h) (e : assignScalar h y v = .ok h') : Dead x h' := by
  rw [JsonNodes.assignScalar] at e
  obtain ⟨old, _, e⟩ := bind_ok e
  obtain ⟨h1, e1, e⟩ := bind_ok e
  obtain ⟨h2, e2, e⟩ := bind_ok e
  cases e
  exact ((d.destroy e1).write e2 : Dead x h2)

theorem Dead.member {x y : Nat} {k : Str} {h : Heap F} {r : Heap F × Nat} (d : Dead x h) (e : member h y k = .ok r) : Dead x r.1 := by
  rw [JsonNodes.member] at e
  obtain ⟨c, _, e⟩ := bind_ok e
  cases c with
  | obj l =>
    simp only at e
    cases hl : lookup k l with
    | some y => rw [hl] at e; cases e; exact d
    | none =>
      rw [hl] at e
      obtain ⟨h1, e1, e⟩ := bind_ok e
      cases e
      exact d.alloc.pushMember e1
  | _ => cases e

theorem Dead.touch {x y : Nat} {k : Str} {h : Heap F} {r : Heap F × Nat} (d : Dead x h) (e : touch h y k = .ok r) : Dead x r.1 := by
  rw [JsonNodes.touch] at e
  obtain ⟨h1, e1, e⟩ := bind_ok e
  exact (d.setType e1).member e

theorem Dead.append {x y z : Nat} {h h' : Heap F} (d : Dead x h) (e : append h y z = .ok h') : Dead x h' := by
  rw [JsonNodes.append] at e
  obtain ⟨⟨h1, a⟩, e1, e⟩ := bind_ok e
  obtain ⟨h2, e2, e⟩ := bind_ok e
  obtain ⟨⟨h3, b⟩, e3, e⟩ := bind_ok e
  obtain ⟨h4, e4, e⟩ := bind_ok e
  exact Dead.delete _ _ _ _ (Dead.pushItem (((d.newCopy e1).setType e2).newCopy e3) e4) e

theorem Dead.leave {x : Nat} {h h' : Heap F} (d : Dead x h) (e : JsonNodes.leave h = .ok h') : Dead x h' := by
  rw [JsonNodes.leave] at e
  obtain ⟨c, _, e⟩ := bind_ok e
  cases c with
  | arr l =>
    simp only at e
    cases hl : l.getLast? with
    | none => rw [hl] at e; cases e
    | some y =>
      rw [hl] at e
      obtain ⟨h1, e1, e⟩ := bind_ok e
      exact Dead.delete _ _ _ _ (d.write e1) e
  | _ => cases e

/-- No statement brings a node back. -/
theorem Dead.run {x : Nat} {h h' : Heap F} {s : Stmt F} (d : Dead x h) (e : s.run h = .ok h') : Dead x h' := by
  cases s with
  | declare v =>
    rw [Stmt.run] at e
    obtain ⟨r, e1, e⟩ := bind_ok e
    exact (d.newScalar e1).pushItem e
  | declareCopy q =>
    rw [Stmt.run] at e
    obtain ⟨y, _, e⟩ := bind_ok e
    obtain ⟨r, e1, e⟩ := bind_ok e
    exact (d.newCopy e1).pushItem e
  | declareMove q =>
    rw [Stmt.run] at e
    obtain ⟨y, _, e⟩ := bind_ok e
    obtain ⟨r, e1, e⟩ := bind_ok e
    exact (d.newMove e1).pushItem e
  | leave => exact d.leave e
  | set p v =>
    rw [Stmt.run] at e
    obtain ⟨y, _, e⟩ := bind_ok e
    exact d.assignScalar e
  | assign p q =>
    rw [Stmt.run] at e
    obtain ⟨y, _, e⟩ := bind_ok e
    obtain ⟨z, _, e⟩ := bind_ok e
    exact d.assignCopy e
  | moveAssign p q =>
    rw [Stmt.run] at e
    obtain ⟨y, _, e⟩ := bind_ok e
    obtain ⟨z, _, e⟩ := bind_ok e
    exact d.assignMove e
  | touch p k =>
    rw [Stmt.run] at e
    obtain ⟨y, _, e⟩ := bind_ok e
    obtain ⟨r, e1, e⟩ := bind_ok e
    cases e
    exact d.touch e1
  | append p q =>
    rw [Stmt.run] at e
    obtain ⟨y, _, e⟩ := bind_ok e
    obtain ⟨z, _, e⟩ := bind_ok e
    exact d.append e

theorem Gone.dead {h h' : Heap F} {fp : List Nat} (g : Gone h h' fp) (w : ∀ y ∈ fp, y < h.next) : ∀ y ∈ fp, Dead y h' :=
  fun y hy => ⟨by rw [g.2.1]; exact w y hy, by rw [g.1 y, if_pos hy]⟩

/-! ## Paths -/

/-- Where a step leads from a node. -/
def child : Cell F → Step → Option Nat
  | .arr l, .index i => l[i]?
  | .obj ms, .key k => lookup k ms
  | _, _ => none

theorem find_cons {h : Heap F} {x y : Nat} {c : Cell F} {s : Step} (hc : h.cells x = some c) (hy : child c s = some y)
    (p : List Step) : find h x (s :: p) = find h y p := by
  rw [find, read, hc]
  cases c with
  | arr l =>
    cases s with
    | index i =>
      simp only [child] at hy
      change (match l[i]? with | some y => find h y p | none => .error .outOfRange) = _
      rw [hy]
    | key k => simp [child] at hy
  | obj ms =>
    cases s with
    | key k =>
      simp only [child] at hy
      change (match lookup k ms with | some y => find h y p | none => .error .outOfRange) = _
      rw [hy]
    | index i => simp [child] at hy
  | _ => cases s <;> simp [child] at hy

theorem find_inv {h : Heap F} {x z : Nat} {s : Step} {p : List Step} (e : find h x (s :: p) = .ok z) :
    ∃ c y, h.cells x = some c ∧ child c s = some y ∧ find h y p = .ok z := by
  rw [find] at e
  obtain ⟨c, hc, e⟩ := bind_ok e
  rw [read] at hc
  cases hx : h.cells x with
  | none => rw [hx] at hc; cases hc
  | some c' =>
    rw [hx] at hc
    cases hc
    cases s with
    | index i =>
      cases c with
      | arr l =>
        simp only at e
        cases hl : l[i]? with
        | none => rw [hl] at e; cases e
        | some y => rw [hl] at e; exact ⟨_, y, rfl, hl, e⟩
      | _ => cases e
    | key k =>
      cases c with
      | obj l =>
        simp only at e
        cases hl : lookup k l with
        | none => rw [hl] at e; cases e
        | some y => rw [hl] at e; exact ⟨_, y, rfl, hl, e⟩
      | _ => cases e

/-- A path leads to the same node if each step on it does. -/
theorem find_keep {h h' : Heap F} {r x : Nat} {p : List Step} (e : find h r p = .ok x)
    (k : ∀ p' s t z c y, p = p' ++ s :: t → find h r p' = .ok z → h.cells z = some c → child c s = some y →
      ∃ c', h'.cells z = some c' ∧ child c' s = some y) : find h' r p = .ok x := by
  induction p generalizing r with
  | nil => cases e; rfl
  | cons s p ih =>
    obtain ⟨c, y, hc, hy, e'⟩ := find_inv e
    obtain ⟨c', hc', hy'⟩ := k [] s p r c y rfl rfl hc hy
    rw [find_cons hc' hy']
    refine ih e' ?_
    intro p' s' t z c1 y1 ep ez hz hy1
    exact k (s :: p') s' t z c1 y1 (by rw [ep]; rfl) (by rw [find_cons hc hy]; exact ez) hz hy1

theorem Rep.child {h : Heap F} {x j f c y} {s : Step} (r : Rep h x j f) (hc : h.cells x = some c)
    (hy : child c s = some y) : ∃ i v, slot s j = some i ∧ (kids j)[i]? = some v ∧ c.children[i]? = some y := by
  cases r with
  | null e | bool e | int e | float e | str e => rw [hc] at e; cases e; cases s <;> simp [JsonNodes.child] at hy
  | @arr _ ids js _ e rs =>
    rw [hc] at e
    cases e
    cases s with
    | key => simp [JsonNodes.child] at hy
    | index i =>
      simp only [JsonNodes.child] at hy
      have : i < js.length := by rw [← rs.length]; exact lt_of_get? hy
      exact ⟨i, js[i], rfl, List.getElem?_eq_getElem this, hy⟩
  | @obj _ ms jms _ e ks rs =>
    rw [hc] at e
    cases e
    cases s with
    | index => simp [JsonNodes.child] at hy
    | key k =>
      simp only [JsonNodes.child] at hy
      rw [lookup_pos, ks] at hy
      have : pos k (jms.map Prod.fst) < (jms.map Prod.snd).length := by
        rw [← rs.length]; exact lt_of_get? hy
      exact ⟨_, _, rfl, List.getElem?_eq_getElem this, hy⟩

/-- A path that leads somewhere in memory leads to a part of the value. -/
theorem Rep.found {h : Heap F} {r j fp x} {p : List Step} (rr : Rep h r j fp) (e : find h r p = .ok x) :
    ∃ v, part p j = some v := by
  induction p generalizing r j fp with
  | nil => exact ⟨j, rfl⟩
  | cons s p ih =>
    obtain ⟨c, y, hc, hy, e'⟩ := find_inv e
    obtain ⟨i, v, hs, hk, hi⟩ := rr.child hc hy
    obtain ⟨c', tl, hc', _, rs, _, _⟩ := rr.parts hs
    rw [hc] at hc'
    cases hc'
    obtain ⟨z, f, ctx, hz, rz, _⟩ := rs.focus hk
    rw [hi] at hz
    cases hz
    obtain ⟨u, hu⟩ := ih rz e'
    exact ⟨u, by rw [get_slot, hs]; simp [hk, hu]⟩

/-- The nodes of a value are given by the memory. -/
theorem Rep.det {h : Heap F} {x j f} (r : Rep h x j f) : ∀ {j' f'}, Rep h x j' f' → f = f' := by
  refine Rep.rec (motive_1 := fun x j f _ => ∀ {j' f'}, Rep h x j' f' → f = f')
    (motive_2 := fun ids js f _ => ∀ {js' f'}, Reps h ids js' f' → f = f') ?_ ?_ ?_ ?_ ?_ ?_ ?_ ?_ ?_ r
  · intro x c j' f' r'; cases r' <;> simp_all
  · intro x b c j' f' r'; cases r' <;> simp_all
  · intro x b c j' f' r'; cases r' <;> simp_all
  · intro x b c j' f' r'; cases r' <;> simp_all
  · intro x b c j' f' r'; cases r' <;> simp_all
  · intro x ids js fp c _ ih j' f' r'
    cases r' with
    | arr c' rs' => rw [c] at c'; cases c'; rw [ih rs']
    | null c' | bool c' | int c' | float c' | str c' => rw [c] at c'; cases c'
    | obj c' => rw [c] at c'; cases c'
  · intro x ms jms fp c _ _ ih j' f' r'
    cases r' with
    | obj c' _ rs' => rw [c] at c'; cases c'; rw [ih rs']
    | null c' | bool c' | int c' | float c' | str c' => rw [c] at c'; cases c'
    | arr c' => rw [c] at c'; cases c'
  · intro js' f' r'; cases r'; rfl
  · intro x j fp ids js fps _ _ i1 i2 js' f' r'
    cases r' with
    | cons r1 r2 => rw [i1 r1, i2 r2]

/-- Different places have different nodes: a node below the place `q` is that of a place inside `q`. -/
theorem Rep.places_differ {h : Heap F} {r j fp v x f x'} {q p' : List Step} (rr : Rep h r j fp) (nd : fp.Nodup)
    (eq : part q j = some v) (hq : find h r q = .ok x) (rx : Rep h x v f) (hp : find h r p' = .ok x') (hm : x' ∈ f) :
    q <+: p' := by
  induction q generalizing r j fp p' with
  | nil => exact List.nil_prefix
  | cons s q ih =>
    rw [get_slot] at eq
    cases hs : slot s j with
    | none => simp [hs] at eq
    | some i =>
    simp only [hs, Option.bind_some] at eq
    cases hk : (kids j)[i]? with
    | none => simp [hk] at eq
    | some u =>
    simp only [hk, Option.bind_some] at eq
    obtain ⟨c, tl, hc, rfl, rs, hf, _⟩ := rr.parts hs
    cases p' with
    | nil =>
      cases hp
      obtain ⟨z, fz, ctx, hz, rz, pm, _⟩ := rs.focus hk
      rw [hf z q hz] at hq
      obtain ⟨x1, f1, ctx1, hx1, rx1, pm1, _⟩ := rz.focus eq
      rw [hq] at hx1
      cases hx1
      rw [rx.det rx1] at hm
      have m1 : x' ∈ fz := pm1.mem_iff.mpr (by simp [hm])
      exact absurd (pm.mem_iff.mpr (by simp [m1])) (List.nodup_cons.mp nd).1
    | cons t p' =>
      obtain ⟨c', y, hc', hy, hp'⟩ := find_inv hp
      rw [hc] at hc'
      cases hc'
      obtain ⟨k, u', ht, hk', hi⟩ := rr.child hc hy
      by_cases st : s = t
      · subst st
        rw [hs] at ht
        cases ht
        obtain ⟨z, fz, ctx, hz, rz, pm, _⟩ := rs.focus hk
        rw [hi] at hz
        cases hz
        rw [hf _ q hi] at hq
        have ndz := (List.nodup_append.mp (pm.nodup_iff.mp (List.nodup_cons.mp nd).2)).2.1
        exact List.cons_prefix_cons.mpr ⟨rfl, ih rz ndz eq hq hp'⟩
      · exfalso
        have ik : i ≠ k := by
          intro c
          subst c
          exact st (slot_inj hs ht (lt_of_get? hk))
        obtain ⟨z1, f1, z2, f2, ctx, hz1, hz2, r1, r2, pm, _⟩ := rs.focus2 ik hk hk'
        rw [hi] at hz2
        cases hz2
        rw [hf _ q hz1] at hq
        obtain ⟨x1, g1, ctx1, hx1, rx1, pm1, _⟩ := r1.focus eq
        rw [hq] at hx1
        cases hx1
        rw [rx.det rx1] at hm
        obtain ⟨v', ev⟩ := r2.found hp'
        obtain ⟨x2, g2, ctx2, hx2, rx2, pm2, _⟩ := r2.focus ev
        rw [hp'] at hx2
        cases hx2
        have m1 : x' ∈ f1 := pm1.mem_iff.mpr (by simp [hm])
        have m2 : x' ∈ f2 := by
          obtain ⟨t, rfl⟩ := rx2.head
          exact pm2.mem_iff.mpr (by simp)
        have nd2 := pm.nodup_iff.mp (List.nodup_cons.mp nd).2
        have := (List.nodup_append.mp (List.nodup_append.mp nd2).2.1).2.2
        exact this x' m1 x' m2 rfl

/-! ## Places in the memory of a program -/

theorem Rep.find_mem {h : Heap F} {r j fp x} {p : List Step} (rr : Rep h r j fp) (e : find h r p = .ok x) : x ∈ fp := by
  obtain ⟨v, ev⟩ := rr.found e
  obtain ⟨y, f, ctx, hy, ry, pm, _⟩ := rr.focus ev
  rw [e] at hy
  cases hy
  obtain ⟨tl, rfl⟩ := ry.head
  exact pm.mem_iff.mpr (by simp)

theorem Rep.find_tail {h : Heap F} {r j tl x} {s : Step} {p : List Step} (rr : Rep h r j (r :: tl))
    (e : find h r (s :: p) = .ok x) : x ∈ tl := by
  obtain ⟨v, ev⟩ := rr.found e
  obtain ⟨y, f, ctx, hy, ry, pm⟩ := rr.inside ev
  rw [e] at hy
  cases hy
  obtain ⟨tl', rfl⟩ := ry.head
  exact pm.mem_iff.mpr (by simp)

theorem Inv.alive {h : Heap F} {vars : List (Json F)} {E p x} (i : Inv h vars E) (e : find h 0 p = .ok x) :
    x < h.next := by
  obtain ⟨fp, r, _, _, _, w⟩ := i
  exact r.lt w x (r.find_mem e)

/-- The nodes on the way to a place are not among those of a place it is not in. -/
theorem Inv.outside {h : Heap F} {vars : List (Json F)} {E q v x f p p' s t z} (i : Inv h vars E)
    (eq : look vars q = some v) (hq : find h 0 q = .ok x) (rx : Rep h x v f) (ep : p = p' ++ s :: t)
    (hz : find h 0 p' = .ok z) (n : ¬ PartOf q p) : z ∉ f := by
  intro c
  obtain ⟨fp, r, nd, _⟩ := i
  have pre := r.places_differ (List.nodup_append.mp nd).1 (get_look eq) hq rx hz c
  refine n ⟨pre.trans ⟨s :: t, ep.symm⟩, fun d => ?_⟩
  have l1 := pre.length_le
  have l2 := congrArg List.length d
  rw [ep] at l2
  simp only [List.length_append, List.length_cons] at l2
  omega

/-- A place inside another one. -/
theorem part_of {q p : List Step} (c : PartOf q p) : ∃ s r, p = q ++ s :: r := by
  obtain ⟨⟨r, rfl⟩, n⟩ := c
  cases r with
  | nil => exact absurd (by simp) n
  | cons s r => exact ⟨s, r, rfl⟩

theorem inside_mem {h : Heap F} {q p x v tl x0} (hq : find h 0 q = .ok x) (rx : Rep h x v (x :: tl)) (c : PartOf q p)
    (hp : find h 0 p = .ok x0) : x0 ∈ tl := by
  obtain ⟨s, r, rfl⟩ := part_of c
  rw [find_part hq] at hp
  exact rx.find_tail hp

theorem kept {h h' : Heap F} {z c s y} (e : h'.cells z = h.cells z) (hc : h.cells z = some c) (hy : child c s = some y) :
    ∃ c', h'.cells z = some c' ∧ child c' s = some y := ⟨c, by rw [e, hc], hy⟩

theorem Inv.stay {h h' : Heap F} {vars : List (Json F)} {E q v x f f' p x0} (i : Inv h vars E) (eq : look vars q = some v)
    (hq : find h 0 q = .ok x) (rx : Rep h x v f) (l : Local h h' f f') (hp : find h 0 p = .ok x0) (n : ¬ PartOf q p) :
    find h' 0 p = .ok x0 :=
  find_keep hp fun _ _ _ _ _ _ ep hz hc hy => kept (l.same _ (i.outside eq hq rx ep hz n) (i.alive hz)) hc hy

theorem destroyed {h h1 : Heap F} {q p x v f x0} (w : Fresh h) (hq : find h 0 q = .ok x) (rx : Rep h x v f)
    (nd : f.Nodup) (c : PartOf q p) (hp : find h 0 p = .ok x0) (e : destroyUnion h x = .ok h1) : Dead x0 h1 := by
  obtain ⟨tl, rfl⟩ := rx.head
  obtain ⟨h2, e2, g⟩ := destroyUnion_ok w rx nd
  rw [e] at e2
  cases e2
  exact g.dead (fun y hy => rx.lt w y (by simp [hy])) _ (inside_mem hq rx c hp)

/-- Every step from a node below `n` still leads to the same node. -/
def Keep (n : Nat) (h h' : Heap F) : Prop :=
  ∀ z c s y, z < n → h.cells z = some c → child c s = some y → ∃ c', h'.cells z = some c' ∧ child c' s = some y

theorem Keep.trans {n : Nat} {h h1 h2 : Heap F} (a : Keep n h h1) (b : Keep n h1 h2) : Keep n h h2 := by
  intro z c s y hz hc hy
  obtain ⟨c', hc', hy'⟩ := a z c s y hz hc hy
  exact b z c' s y hz hc' hy'

theorem Keep.same {n : Nat} {h h' : Heap F} (e : ∀ z, z < n → h'.cells z = h.cells z) : Keep n h h' :=
  fun z _ _ _ hz hc hy => kept (e z hz) hc hy

theorem Keep.local {h h' : Heap F} {f n} (l : Local h h' [] f) (le : n ≤ h.next) : Keep n h h' :=
  Keep.same fun z hz => l.same z (by simp) (by omega)

theorem Keep.pushItem {h h' : Heap F} {x y n : Nat} (e : pushItem h x y = .ok h') : Keep n h h' := by
  intro z c s a _ hc hy
  rw [JsonNodes.pushItem] at e
  obtain ⟨c', hc', e⟩ := bind_ok e
  rw [read] at hc'
  cases hx : h.cells x with
  | none => rw [hx] at hc'; cases hc'
  | some cx =>
    rw [hx] at hc'
    cases hc'
    cases c' with
    | arr l =>
      simp only at e
      rw [write_ok (by simp [hx])] at e
      cases e
      by_cases zx : z = x
      · subst zx
        rw [hc] at hx
        cases hx
        refine ⟨.arr (l ++ [y]), by simp [upd], ?_⟩
        cases s with
        | key => simp [child] at hy
        | index i =>
          simp only [child] at hy ⊢
          rw [List.getElem?_append_left (lt_of_get? hy)]
          exact hy
      · exact ⟨c, by simp [upd, zx, hc], hy⟩
    | _ => cases e

theorem lookup_append {k : Str} {y : Nat} {l : List (Str × Nat)} (e : lookup k l = some y) (m : List (Str × Nat)) :
    lookup k (l ++ m) = some y := by
  induction l with
  | nil => cases e
  | cons a l ih =>
    obtain ⟨k', y'⟩ := a
    rw [List.cons_append, lookup]
    rw [lookup] at e
    by_cases c : k' = k
    · rw [if_pos c] at e ⊢; exact e
    · rw [if_neg c] at e ⊢; exact ih e

theorem Keep.pushMember {h h' : Heap F} {x y n : Nat} {k : Str} (e : pushMember h x k y = .ok h') : Keep n h h' := by
  intro z c s a _ hc hy
  rw [JsonNodes.pushMember] at e
  obtain ⟨c', hc', e⟩ := bind_ok e
  rw [read] at hc'
  cases hx : h.cells x with
  | none => rw [hx] at hc'; cases hc'
  | some cx =>
    rw [hx] at hc'
    cases hc'
    cases c' with
    | obj l =>
      simp only at e
      rw [write_ok (by simp [hx])] at e
      cases e
      by_cases zx : z = x
      · subst zx
        rw [hc] at hx
        cases hx
        refine ⟨.obj (l ++ [(k, y)]), by simp [upd], ?_⟩
        cases s with
        | index => simp [child] at hy
        | key k' => exact lookup_append hy _
      · exact ⟨c, by simp [upd, zx, hc], hy⟩
    | _ => cases e

theorem Inv.keep {h h' : Heap F} {vars : List (Json F)} {E p x} (i : Inv h vars E) (k : Keep h.next h h')
    (hp : find h 0 p = .ok x) : find h' 0 p = .ok x :=
  find_keep hp fun _ _ _ _ _ _ _ hz hc hy => k _ _ _ _ (i.alive hz) hc hy

/-- The parts of a node that is moved. -/
theorem moved_find {h h' : Heap F} {src dst j tl c s r z} (rs : Rep h src j (src :: tl)) (hc : h.cells src = some c)
    (hd : h'.cells dst = some c) (same : ∀ y ∈ tl, h'.cells y = h.cells y) (e : find h src (s :: r) = .ok z) :
    find h' dst (s :: r) = .ok z := by
  obtain ⟨c', y, hc', hy, e'⟩ := find_inv e
  rw [hc] at hc'
  cases hc'
  rw [find_cons hd hy]
  refine find_keep e' fun p' s' t z' c1 y1 ep hz hc1 hy1 => kept (same z' ?_) hc1 hy1
  exact rs.find_tail (s := s) (p := p') (by rw [find_cons hc hy]; exact hz)

/-- The root is not below itself. -/
theorem Inv.root {h : Heap F} {vars : List (Json F)} {E p x} (i : Inv h vars E) (hp : find h 0 p = .ok x) (ne : p ≠ []) :
    x ≠ 0 := by
  obtain ⟨fp, r, nd, _⟩ := i
  obtain ⟨tl, rfl⟩ := r.head
  cases p with
  | nil => exact absurd rfl ne
  | cons s p =>
    have := r.find_tail hp
    intro c
    rw [c] at this
    exact (List.nodup_cons.mp (List.nodup_append.mp nd).1).1 this

theorem look_ne {vars : List (Json F)} {p : List Step} {v : Json F} (e : look vars p = some v) : p ≠ [] := by
  rintro rfl
  simp [look] at e

/-! ## References -/

/-- A reference is where it should be. -/
def Stands (h : Heap F) (o : Option (List Step)) (x : Nat) : Prop :=
  match o with
  | some p => find h 0 p = .ok x
  | none => Dead x h

theorem setType_same {h h' : Heap F} {x j f} {c : Cell F} (r : Rep h x j f) (t : j.type = c.type) (e : setType h x c = .ok h') :
    h' = h := by
  rw [setType] at e
  obtain ⟨old, ho, e⟩ := bind_ok e
  rw [read] at ho
  cases hx : h.cells x with
  | none => rw [hx] at ho; cases ho
  | some c' =>
    rw [hx] at ho
    cases ho
    rw [if_pos (by rw [r.type hx, t])] at e
    cases e
    rfl

theorem setType_other {h h' : Heap F} {x j f} {c : Cell F} (r : Rep h x j f) (t : j.type ≠ c.type) (e : setType h x c = .ok h') :
    ∃ h1, destroyUnion h x = .ok h1 ∧ write h1 x c = .ok h' := by
  rw [setType] at e
  obtain ⟨old, ho, e⟩ := bind_ok e
  rw [read] at ho
  cases hx : h.cells x with
  | none => rw [hx] at ho; cases ho
  | some c' =>
    rw [hx] at ho
    cases ho
    rw [if_neg (by rw [r.type hx]; exact t)] at e
    obtain ⟨h1, e1, e⟩ := bind_ok e
    exact ⟨h1, e1, e⟩

theorem Inv.touched {h h' : Heap F} {vars : List (Json F)} {E q k p x0} (i : Inv h vars E) {v : Json F}
    (eq : look vars q = some v) (e : (Stmt.touch q k : Stmt F).run h = .ok h') (hp : find h 0 p = .ok x0) :
    Stands h' (track vars p (.touch q k)) x0 := by
  obtain ⟨x, f, hq, rx, nd, w, _⟩ := i.place eq
  rw [Stmt.run, hq] at e
  obtain ⟨⟨h1, y⟩, e1, e⟩ := bind_ok (show (touch h x k >>= fun r => pure r.1) = Except.ok h' from e)
  cases e
  rw [track, eq]
  by_cases c : PartOf q p
  · by_cases t : v.type = .object
    · simp only [Option.map_some, t, ne_eq, not_true_eq_false, and_false, if_false]
      refine i.keep ?_ hp
      rw [touch] at e1
      obtain ⟨h2, e2, em⟩ := bind_ok e1
      have := setType_same rx (by rw [t]; rfl) e2
      subst this
      have e1 : JsonNodes.member h2 x k = .ok (h1, y) := em
      rw [JsonNodes.member] at e1
      obtain ⟨cl, _, e1⟩ := bind_ok e1
      cases cl with
      | obj l =>
        simp only at e1
        cases hl : lookup k l with
        | some y => rw [hl] at e1; cases e1; exact Keep.same fun _ _ => rfl
        | none =>
          rw [hl] at e1
          obtain ⟨h3, e3, e1⟩ := bind_ok e1
          cases e1
          exact (Keep.local (Local.alloc w) (Nat.le_refl _)).trans (Keep.pushMember e3)
      | _ => cases e1
    · rw [if_pos ⟨c, by simpa using t⟩]
      rw [touch] at e1
      obtain ⟨h2, e2, e1⟩ := bind_ok e1
      obtain ⟨h3, e3, e4⟩ := setType_other rx (show v.type ≠ Cell.type (.obj []) from t) e2
      exact ((destroyed w hq rx nd c hp e3).write e4).member e1
  · rw [if_neg (fun d => c d.1)]
    obtain ⟨h2, y2, f', e2, _, l⟩ := touch_local w rx nd k
    rw [e1] at e2
    cases e2
    exact i.stay eq hq rx l hp c

theorem Inv.appended {h h' : Heap F} {vars : List (Json F)} {E q s p x0} (i : Inv h vars E) {v u : Json F}
    (eq : look vars q = some v) (es : look vars s = some u) (e : (Stmt.append q s : Stmt F).run h = .ok h')
    (hp : find h 0 p = .ok x0) : Stands h' (track vars p (.append q s)) x0 := by
  obtain ⟨x, f, hq, rx, nd, w, _⟩ := i.place eq
  obtain ⟨y, g, hs, ry, ndy, _, _⟩ := i.place es
  rw [Stmt.run, hq] at e
  have e : append h x y = .ok h' := by
    have e : (find h 0 s >>= fun src => append h x src) = .ok h' := e
    rw [hs] at e
    exact e
  rw [track, eq]
  by_cases c : PartOf q p
  · obtain ⟨h1, fa, e1, ra, l1, _⟩ := newCopy_local w ry ndy
    have r1 : Rep h1 x v f := l1.rep w rx (by simp)
    have ea := e
    rw [append, e1] at e
    have e : (setType h1 x (Cell.arr []) >>= fun h' => newCopy h' h.next >>= fun r =>
      pushItem r.1 x r.2 >>= fun h' => deleteNode (h'.next + 1) h' h.next) = .ok h' := e
    obtain ⟨h2, e2, e⟩ := bind_ok e
    obtain ⟨⟨h3, b⟩, e3, e⟩ := bind_ok e
    obtain ⟨h4, e4, el⟩ := bind_ok e
    by_cases t : v.type = .array
    · simp only [Option.map_some, t, ne_eq, not_true_eq_false, and_false, if_false]
      refine i.keep ?_ hp
      have := setType_same r1 (by rw [t]; rfl) e2
      subst this
      have nda : fa.Nodup := l1.nodup (by simp)
      have da : ∀ y ∈ fa, h.next ≤ y := fun y hy => by
        rcases l1.mem y hy with c | c
        · simp at c
        · exact c
      obtain ⟨h3', fb, e3', _, l3, _⟩ := newCopy_local l1.fresh ra nda
      rw [e3] at e3'
      cases e3'
      have ra3 : Rep h3 h.next u fa := l3.rep l1.fresh ra (by simp)
      have xl : x < h.next := i.alive hq
      -- the pointer is stored in a node that is not one of the temporary
      have same4 : ∀ z, z ≠ x → h4.cells z = h3.cells z := by
        intro z hz
        rw [JsonNodes.pushItem] at e4
        obtain ⟨c', _, e4⟩ := bind_ok e4
        cases c' with
        | arr l =>
          simp only at e4
          rw [JsonNodes.write] at e4
          split at e4
          · cases e4; simp [upd, hz]
          · cases e4
        | _ => cases e4
      have f4 : Fresh h4 := by
        intro z hz
        have : h3.next = h4.next := by
          rw [JsonNodes.pushItem] at e4
          obtain ⟨c', _, e4⟩ := bind_ok e4
          cases c' with
          | arr l =>
            simp only at e4
            rw [JsonNodes.write] at e4
            split at e4
            · cases e4; rfl
            · cases e4
          | _ => cases e4
        have := l3.next
        have := l1.next
        rw [same4 z (by omega)]
        exact l3.fresh z (by omega)
      have ra4 : Rep h4 h.next u fa := ra3.frame fun z hz => same4 z (by have := da z hz; omega)
      obtain ⟨h5, e5, g5⟩ := deleteNode_ok (h4.next + 1) h4 h.next u fa ra4 nda
        (by have := f4.length nda ra4.live; omega)
      have : h5 = h' := by
        have e : deleteNode (h4.next + 1) h4 h.next = .ok h' := el
        rw [e5] at e
        cases e
        rfl
      subst this
      refine (Keep.local l1 (Nat.le_refl _)).trans ((Keep.local l3 l1.next).trans ((Keep.pushItem e4).trans (Keep.same ?_)))
      intro z hz
      rw [g5.1 z, if_neg (fun c => by have := da z c; omega)]
    · rw [if_pos ⟨c, by simpa using t⟩]
      obtain ⟨h5, e5, e6⟩ := setType_other r1 (show v.type ≠ Cell.type (.arr []) from t) e2
      have hq1 : find h1 0 q = .ok x := i.keep (Keep.local l1 (Nat.le_refl _)) hq
      have hp1 : find h1 0 p = .ok x0 := i.keep (Keep.local l1 (Nat.le_refl _)) hp
      have D : Dead x0 h2 := (destroyed l1.fresh hq1 r1 nd c hp1 e5).write e6
      exact Dead.delete _ _ _ _ (Dead.pushItem (D.newCopy e3) e4) el
  · rw [if_neg (fun d => c d.1)]
    obtain ⟨h2, f', e2, _, l⟩ := append_local w rx nd ry ndy
    rw [e] at e2
    cases e2
    exact i.stay eq hq rx l hp c

theorem Inv.movedTo {h h' : Heap F} {vars : List (Json F)} {E q s p x0} (i : Inv h vars E) {v u : Json F}
    (eq : look vars q = some v) (es : look vars s = some u) (ap : Apart q s)
    (e : (Stmt.moveAssign q s : Stmt F).run h = .ok h') (hp : find h 0 p = .ok x0) :
    Stands h' (track vars p (.moveAssign q s)) x0 := by
  obtain ⟨x, f, y, g, hq, hs, rx, ry, nd, w, _⟩ := i.places ap eq es
  rw [Stmt.run, hq] at e
  have e : assignMove h x y = .ok h' := by
    have e : (find h 0 s >>= fun src => assignMove h x src) = .ok h' := e
    rw [hs] at e
    exact e
  obtain ⟨ndf, ndg, d⟩ := List.nodup_append.mp nd
  obtain ⟨tl, rfl⟩ := rx.head
  obtain ⟨tg, rfl⟩ := ry.head
  have xy : x ≠ y := d x (by simp) y (by simp)
  obtain ⟨h1, e1, g1⟩ := destroyUnion_ok w rx ndf
  obtain ⟨c, _, _, hc, _, _⟩ := ry.children
  have hx1 : h1.cells x = h.cells x := by rw [g1.1 x, if_neg (List.nodup_cons.mp ndf).1]
  have hy1 : h1.cells y = some c := by
    rw [g1.1 y, if_neg (fun c => d y (by simp [c]) y (by simp) rfl), hc]
  have e2 := moveUnion_ok xy hy1 (by rw [hx1]; exact rx.live x (by simp))
  have : h' = { h1 with cells := upd (upd h1.cells x (some c)) y (some .null) } := by
    rw [assignMove, if_neg xy, e1] at e
    have e : moveUnion h1 x y = .ok h' := e
    rw [e2] at e
    cases e
    rfl
  subst this
  have ns : q ≠ s := fun c => ap.1 (c ▸ List.prefix_rfl)
  -- what is outside of both places has not changed
  have out : ∀ {p x0}, find h 0 p = .ok x0 → ¬ PartOf q p → ¬ PartOf s p →
      find { h1 with cells := upd (upd h1.cells x (some c)) y (some .null) } 0 p = .ok x0 := by
    intro p x0 hp n1 n2
    refine find_keep hp fun p' t t' z c' y' ep hz hc' hy' => kept ?_ hc' hy'
    have m1 := i.outside eq hq rx ep hz n1
    have m2 := i.outside es hs ry ep hz n2
    simp only [List.mem_cons, not_or] at m1 m2
    simp only [upd, m1.1, m2.1, if_false]
    rw [g1.1 z, if_neg m1.2]
  rw [track, if_neg ns]
  by_cases c1 : PartOf q p
  · rw [if_pos c1]
    exact Dead.moveUnion (destroyed w hq rx ndf c1 hp e1) e2
  · rw [if_neg c1]
    by_cases c2 : PartOf s p
    · rw [if_pos c2]
      obtain ⟨t, r, rfl⟩ := part_of c2
      rw [find_part hs] at hp
      simp only [List.drop_left]
      have hq' := out hq (fun c => c.2 rfl) (fun c => ap.2 c.1)
      change find _ 0 (q ++ t :: r) = _
      rw [find_part hq']
      refine moved_find ry hc (by simp [upd, xy]) ?_ hp
      intro z hz
      have z1 : z ≠ y := fun c => (List.nodup_cons.mp ndg).1 (c ▸ hz)
      have z2 : z ≠ x := fun c => d x (by simp) z (by simp [hz]) c.symm
      simp only [upd, z1, z2, if_false]
      rw [g1.1 z, if_neg (fun c => d z (by simp [c]) z (by simp [hz]) rfl)]
    · rw [if_neg c2]
      exact out hp c1 c2

theorem Inv.movedOut {h h' : Heap F} {vars : List (Json F)} {E q p x0} (i : Inv h vars E) {v : Json F}
    (eq : look vars q = some v) (e : (Stmt.declareMove q : Stmt F).run h = .ok h') (hp : find h 0 p = .ok x0) :
    Stands h' (track vars p (.declareMove q)) x0 := by
  obtain ⟨x, f, hq, rx, nd, w, _⟩ := i.place eq
  obtain ⟨tl, rfl⟩ := rx.head
  have x0n : x ≠ 0 := i.root hq (look_ne eq)
  have xl : x < h.next := i.alive hq
  obtain ⟨c, _, _, hc, _, _⟩ := rx.children
  have i' := i
  obtain ⟨fp, r, ndr, _⟩ := i'
  cases r with
  | @arr _ ids _ tr h0 rs =>
  have l0 : 0 < h.next := w.lt (by simp [h0])
  have ca : ∀ z, z < h.next → (alloc h).1.cells z = h.cells z := fun z hz => (Local.alloc w).same z (by simp) hz
  have e2 := moveUnion_ok (h := (alloc h).1) (dst := h.next) (by omega) ((ca x xl).trans hc) (by simp [alloc_live])
  generalize h1def : ({ (alloc h).1 with cells := upd (upd (alloc h).1.cells h.next (some c)) x (some .null) } : Heap F) = h1 at e2
  have n0 : h.next ≠ 0 := by omega
  have h10 : h1.cells 0 = some (.arr ids) := by
    subst h1def
    simp only [upd]
    rw [if_neg (by omega), if_neg (by omega), ca 0 l0, h0]
  have : h' = { h1 with cells := upd h1.cells 0 (some (.arr (ids ++ [h.next]))) } := by
    rw [Stmt.run, hq] at e
    have e : (newMove h x >>= fun r => pushItem r.1 0 r.2) = .ok h' := e
    rw [newMove] at e
    have e : ((moveUnion (alloc h).1 h.next x >>= fun h' => pure (h', h.next)) >>= fun r => pushItem r.1 0 r.2) = .ok h' := e
    rw [e2] at e
    have e : pushItem h1 0 h.next = .ok h' := e
    rw [pushItem_ok h10] at e
    cases e
    rfl
  subst this
  have same : ∀ z, z < h.next → z ≠ x → z ≠ 0 → upd h1.cells 0 (some (.arr (ids ++ [h.next]))) z = h.cells z := by
    intro z hz z1 z2
    subst h1def
    simp only [upd, z1, z2, if_false]
    rw [if_neg (by omega), ca z hz]
  rw [track]
  by_cases c1 : PartOf q p
  · rw [if_pos c1]
    obtain ⟨t, r, rfl⟩ := part_of c1
    rw [find_part hq] at hp
    simp only [List.drop_left]
    change find _ 0 (.index vars.length :: t :: r) = _
    rw [find_cons (c := .arr (ids ++ [h.next])) (y := h.next) (by simp [upd]) (by simp [child, ← rs.length])]
    refine moved_find rx hc ?_ ?_ hp
    · subst h1def
      simp only [upd]
      rw [if_neg n0, if_neg (by omega), if_pos trivial]
    · intro z hz
      refine same z (rx.lt w z (by simp [hz])) (fun c => (List.nodup_cons.mp nd).1 (c ▸ hz)) ?_
      rintro rfl
      obtain ⟨s1, q1, rfl⟩ : ∃ s1 q1, q = s1 :: q1 := by
        cases q with
        | nil => exact absurd rfl (look_ne eq)
        | cons s1 q1 => exact ⟨s1, q1, rfl⟩
      obtain ⟨x1, f1, ctx, hx1, rx1, pm⟩ := (Rep.arr h0 rs).inside (get_look eq)
      rw [hq] at hx1
      cases hx1
      rw [← rx.det rx1] at pm
      have : 0 ∈ tr := pm.mem_iff.mpr (by simp [hz])
      exact (List.nodup_cons.mp (List.nodup_append.mp ndr).1).1 this
  · rw [if_neg c1]
    refine find_keep hp fun p' t t' z c' y' ep hz hc' hy' => ?_
    have m1 := i.outside eq hq rx ep hz c1
    simp only [List.mem_cons, not_or] at m1
    by_cases z0 : z = 0
    · subst z0
      rw [h0] at hc'
      cases hc'
      refine ⟨.arr (ids ++ [h.next]), by simp [upd], ?_⟩
      cases t with
      | key => simp [child] at hy'
      | index k =>
        simp only [child] at hy' ⊢
        rw [List.getElem?_append_left (lt_of_get? hy')]
        exact hy'
    · exact kept (same z (i.alive hz) m1.1 z0) hc' hy'

theorem Inv.left {h h' : Heap F} {vars : List (Json F)} {E p x0} (i : Inv h vars E) (ne : vars ≠ [])
    (e : JsonNodes.leave h = .ok h') (hp : find h 0 p = .ok x0) : Stands h' (track vars p (.leave : Stmt F)) x0 := by
  have i' := i
  obtain ⟨fp, rr, nd, cov, le, w⟩ := i'
  cases rr with
  | @arr _ ids _ tr h0 rs =>
  have len := rs.length
  have hl : vars.length - 1 < vars.length := by
    have := List.length_pos_iff.mpr ne
    omega
  obtain ⟨y, f1, ctx, hy, ry, pm, _⟩ := rs.focus (List.getElem?_eq_getElem hl)
  have lt1 : vars.length - 1 < ids.length := by omega
  have hq : find h 0 [.index (vars.length - 1)] = .ok y := find_cons h0 (by simpa [child] using hy) []
  have eq : look vars [.index (vars.length - 1)] = some vars[vars.length - 1] := by
    simp [look, part, List.getElem?_eq_getElem hl]
  have ndt := List.nodup_cons.mp (List.nodup_append.mp nd).1
  have nd1 : f1.Nodup := (List.nodup_append.mp (pm.nodup_iff.mp ndt.2)).2.1
  have f0 : ∀ z ∈ f1, z ≠ 0 := fun z hz c => ndt.1 (pm.mem_iff.mpr (by simp [c ▸ hz]))
  -- the node of the last variable is released
  have last : ids.getLast? = some y := by
    rw [List.getLast?_eq_getElem?, len]; exact hy
  rw [JsonNodes.leave, read, h0] at e
  have e : (match ids.getLast? with
    | some z => write h 0 (.arr ids.dropLast) >>= fun h => deleteNode (h.next + 1) h z
    | none => .error .ub) = .ok h' := e
  rw [last] at e
  simp only at e
  rw [write_ok (by simp [h0])] at e
  generalize h1def : ({ h with cells := upd h.cells 0 (some (.arr ids.dropLast)) } : Heap F) = h1 at e
  have e : deleteNode (h1.next + 1) h1 y = .ok h' := e
  have r1 : Rep h1 y vars[vars.length - 1] f1 := ry.frame fun z hz => by
    subst h1def
    simp [upd, f0 z hz]
  have fr1 : Fresh h1 := by
    subst h1def
    exact (Local.write w (x := 0) (by simp [h0]) (.arr ids.dropLast) h.strings).fresh
  obtain ⟨h2, e2, g2⟩ := deleteNode_ok (h1.next + 1) h1 y _ f1 r1 nd1 (by have := fr1.length nd1 r1.live; omega)
  rw [e] at e2
  cases e2
  rw [track]
  by_cases c : p.head? = some (.index (vars.length - 1))
  · rw [if_pos c]
    cases p with
    | nil => simp at c
    | cons s p =>
      simp only [List.head?_cons, Option.some.injEq] at c
      subst c
      rw [find_cons h0 (by simpa [child] using hy)] at hp
      exact g2.dead (fun z hz => r1.lt fr1 z hz) _ (ry.find_mem hp)
  · rw [if_neg c]
    have np : ¬ PartOf [.index (vars.length - 1)] p := by
      rintro ⟨⟨t, rfl⟩, _⟩
      exact c rfl
    refine find_keep hp fun p' t t' z c' y' ep hz hc' hy' => ?_
    have m := i.outside eq hq ry ep hz np
    by_cases z0 : z = 0
    · subst z0
      rw [h0] at hc'
      cases hc'
      have p0 : p' = [] := by
        cases p' with
        | nil => rfl
        | cons s p' => exact absurd rfl (i.root hz (by simp))
      subst p0
      refine ⟨.arr ids.dropLast, ?_, ?_⟩
      · rw [g2.1 0, if_neg m]
        subst h1def
        simp [upd]
      · cases t with
        | key => simp [child] at hy'
        | index k =>
          simp only [child] at hy' ⊢
          have k1 := lt_of_get? hy'
          have k2 : k ≠ vars.length - 1 := by
            rintro rfl
            exact c (by rw [ep]; rfl)
          rw [List.getElem?_dropLast, if_pos (by omega)]
          exact hy'
    · refine kept ?_ hc' hy'
      rw [g2.1 z, if_neg m]
      subst h1def
      simp [upd, z0]

/-- After a statement a place is where it should be. -/
theorem Inv.track {h h' : Heap F} {vars vars' : List (Json F)} {E p x0} {s : Stmt F} (i : Inv h vars E)
    (m : meaning vars s = some vars') (e : s.run h = .ok h') (hp : find h 0 p = .ok x0) :
    Stands h' (track vars p s) x0 := by
  cases s with
  | declare v =>
    obtain ⟨fp, r, nd, cov, le, w⟩ := id i
    obtain ⟨h1, e1, _, l⟩ := newScalar_local w v
    rw [Stmt.run, e1] at e
    exact i.keep ((Keep.local l (Nat.le_refl _)).trans (Keep.pushItem e)) hp
  | declareCopy q =>
    simp only [meaning, Option.map_eq_some_iff] at m
    obtain ⟨v, eq, rfl⟩ := m
    obtain ⟨x, f, hx, rx, ndx, w, _⟩ := i.place eq
    obtain ⟨h1, f', e1, _, l, _⟩ := newCopy_local w rx ndx
    rw [Stmt.run, hx] at e
    have e : (newCopy h x >>= fun r => pushItem r.1 0 r.2) = .ok h' := e
    rw [e1] at e
    exact i.keep ((Keep.local l (Nat.le_refl _)).trans (Keep.pushItem e)) hp
  | declareMove q =>
    simp only [meaning, Option.map_eq_some_iff] at m
    obtain ⟨v, eq, rfl⟩ := m
    exact i.movedOut eq e hp
  | leave =>
    simp only [meaning] at m
    by_cases c : vars = []
    · simp [c] at m
    · exact i.left c e hp
  | set q v =>
    simp only [meaning, Option.map_eq_some_iff] at m
    obtain ⟨v', eq, rfl⟩ := m
    obtain ⟨x, f, hx, rx, ndx, w, _⟩ := i.place eq
    rw [Stmt.run, hx] at e
    have e : assignScalar h x v = .ok h' := e
    rw [Spec.track]
    by_cases c : PartOf q p
    · rw [if_pos c]
      rw [JsonNodes.assignScalar] at e
      obtain ⟨old, _, e⟩ := bind_ok e
      obtain ⟨h1, e1, e⟩ := bind_ok e
      obtain ⟨h2, e2, e⟩ := bind_ok e
      cases e
      exact ((destroyed w hx rx ndx c hp e1).write e2 : Dead x0 h2)
    · rw [if_neg c]
      obtain ⟨h1, e1, _, l⟩ := assignScalar_local w rx ndx v
      rw [e] at e1
      cases e1
      exact i.stay eq hx rx l hp c
  | assign q s =>
    simp only [meaning, Option.bind_eq_some_iff] at m
    obtain ⟨vp, eq, vq, es, m⟩ := m
    by_cases c : q = s
    · subst c
      obtain ⟨x, f, hx, _⟩ := i.place eq
      rw [Stmt.run, hx] at e
      have e : assignCopy h x x = .ok h' := e
      rw [assignCopy, if_pos rfl] at e
      cases e
      rw [Spec.track, if_pos rfl]
      exact hp
    · rw [if_neg c] at m
      by_cases ap : Apart q s
      · obtain ⟨x, f, y, g, hx, hy, rx, ry, nd, w, _⟩ := i.places ap eq es
        rw [List.nodup_append] at nd
        rw [Stmt.run, hx] at e
        have e : assignCopy h x y = .ok h' := by
          have e : (find h 0 s >>= fun src => assignCopy h x src) = .ok h' := e
          rw [hy] at e
          exact e
        rw [Spec.track, if_neg c]
        by_cases d : PartOf q p
        · rw [if_pos d]
          rw [assignCopy, if_neg (fun (c : x = y) => by
            obtain ⟨t1, rfl⟩ := rx.head
            obtain ⟨t2, rfl⟩ := ry.head
            exact nd.2.2 x (by simp) y (by simp) c)] at e
          obtain ⟨h1, e1, e⟩ := bind_ok e
          exact Dead.copy _ _ _ _ _ (destroyed w hx rx nd.1 d hp e1) e
        · rw [if_neg d]
          obtain ⟨h1, f', e1, _, l⟩ := assignCopy_local w rx nd.1 ry nd.2.1 (fun z hz c => nd.2.2 z c z hz rfl)
          rw [e] at e1
          cases e1
          exact i.stay eq hx rx l hp d
      · simp [ap] at m
  | moveAssign q s =>
    simp only [meaning, Option.bind_eq_some_iff] at m
    obtain ⟨vp, eq, vq, es, m⟩ := m
    by_cases c : q = s
    · subst c
      obtain ⟨x, f, hx, _⟩ := i.place eq
      rw [Stmt.run, hx] at e
      have e : assignMove h x x = .ok h' := e
      rw [assignMove, if_pos rfl] at e
      cases e
      rw [Spec.track, if_pos rfl]
      exact hp
    · rw [if_neg c] at m
      by_cases ap : Apart q s
      · exact i.movedTo eq es ap e hp
      · simp [ap] at m
  | touch q k =>
    simp only [meaning, Option.map_eq_some_iff] at m
    obtain ⟨v', eq, rfl⟩ := m
    exact i.touched eq e hp
  | append q s =>
    simp only [meaning, Option.bind_eq_some_iff, Option.map_eq_some_iff] at m
    obtain ⟨vp, eq, vq, es, rfl⟩ := m
    exact i.appended eq es e hp

/-! ## Programs with references -/

theorem track_ne {vars : List (Json F)} {p p' : List Step} {s : Stmt F} (ne : p ≠ []) (e : track vars p s = some p') : p' ≠ [] := by
  have two : ∀ {s : List Step} {q : List Step}, PartOf s p → q ++ p.drop s.length ≠ [] := by
    intro s q c
    obtain ⟨t, r, rfl⟩ := part_of c
    simp
  cases s with
  | declare | declareCopy => cases e; exact ne
  | declareMove q =>
    rw [track] at e
    split at e
    · cases e; simp
    · cases e; exact ne
  | leave | set | touch | append =>
    rw [track] at e
    split at e
    · cases e
    · cases e; exact ne
  | assign q s =>
    rw [track] at e
    split at e
    · cases e; exact ne
    · split at e
      · cases e
      · cases e; exact ne
  | moveAssign q s =>
    rw [track] at e
    split at e
    · cases e; exact ne
    · split at e
      · cases e
      · split at e
        · next c => cases e; exact two c
        · cases e; exact ne

/-- Where the references are, with the nodes. -/
def Standing (h : Heap F) (refs : List (Option (List Step))) (xs : List Nat) : Prop :=
  refs.length = xs.length ∧ ∀ (k : Nat) (o : Option (List Step)) (x : Nat), refs[k]? = some o → xs[k]? = some x →
    Stands h o x ∧ o ≠ some []

theorem Standing.node {h : Heap F} {refs xs P p} (st : Standing h refs xs) (e : target refs P = some (some p)) :
    node h xs P = find h 0 p := by
  cases P with
  | var q => cases e; rfl
  | ref k r =>
    rw [target] at e
    cases hk : refs[k]? with
    | none => simp [hk] at e
    | some o =>
      cases o with
      | none => simp [hk] at e
      | some q =>
        simp only [hk, Option.map_some, Option.some.injEq] at e
        subst e
        have lk : k < xs.length := by rw [← st.1]; exact lt_of_get? hk
        have hx := List.getElem?_eq_getElem lk
        have := (st.2 k _ _ hk hx).1
        rw [JsonNodes.node, hx]
        exact (find_part this).symm

theorem read_dead {h : Heap F} {x : Nat} (d : Dead x h) : read h x = .error .ub := by rw [read, d.2]

/-- A place from a dangling reference. -/
theorem Standing.dangling {h : Heap F} {refs xs P} (st : Standing h refs xs) (e : target refs P = some none) :
    ∃ k r x, P = .ref k r ∧ refs[k]? = some none ∧ xs[k]? = some x ∧ Dead x h ∧
      JsonNodes.node h xs P = if r = [] then .ok x else .error .ub := by
  cases P with
  | var q => cases e
  | ref k r =>
    rw [target] at e
    cases hk : refs[k]? with
    | none => simp [hk] at e
    | some o =>
      cases o with
      | some q => simp [hk] at e
      | none =>
        have lk : k < xs.length := by rw [← st.1]; exact lt_of_get? hk
        have hx := List.getElem?_eq_getElem lk
        have d : Dead xs[k] h := (st.2 k _ _ hk hx).1
        refine ⟨k, r, xs[k], rfl, hk, hx, d, ?_⟩
        rw [JsonNodes.node, hx]
        cases r with
        | nil => rfl
        | cons s r =>
          rw [if_neg (by simp)]
          change find h xs[k] (s :: r) = _
          rw [find, read_dead d]
          rfl

theorem copy_dead {h : Heap F} {dst x n : Nat} (d : Dead x h) : copyUnion (n + 1) h dst x = .error .ub := by
  rw [copyUnion, read_dead d]; rfl

theorem newCopy_dead {h : Heap F} {x : Nat} (d : Dead x h) : newCopy h x = .error .ub := by
  rw [newCopy]
  change (copyUnion (h.next + 1) (alloc h).1 h.next x >>= fun h' => pure (h', h.next)) = _
  rw [copy_dead d.alloc]; rfl

/-- Whatever is done with one dangling reference. -/
theorem Unary.dead {h : Heap F} {x : Nat} (k : Unary F) (d : Dead x h) : k.run h x = .error .ub := by
  cases k with
  | declareCopy =>
    change (newCopy h x >>= fun r => pushItem r.1 0 r.2) = _
    rw [newCopy_dead d]; rfl
  | declareMove =>
    change ((moveUnion (alloc h).1 h.next x >>= fun h' => pure (h', h.next)) >>= fun r => pushItem r.1 0 r.2) = _
    rw [moveUnion, read_dead d.alloc]; rfl
  | set v =>
    change assignScalar h x v = _
    rw [assignScalar, read_dead d]; rfl
  | touch key =>
    change (JsonNodes.touch h x key >>= fun r => pure r.1) = _
    rw [JsonNodes.touch, setType, read_dead d]; rfl

theorem destroy_dead {h : Heap F} {x : Nat} (d : Dead x h) : destroyUnion h x = .error .ub := by
  rw [destroyUnion, read_dead d]; rfl

/-- A dangling reference on the left. -/
theorem Binary.dead_left {h : Heap F} {x y j g} (k : Binary) (w : Fresh h) (d : Dead x h) (ry : Rep h y j g) (nd : g.Nodup) :
    k.run h x y = .error .ub := by
  have xy : x ≠ y := by
    rintro rfl
    obtain ⟨tl, rfl⟩ := ry.head
    exact ry.live x (by simp) d.2
  cases k with
  | assign =>
    change assignCopy h x y = _
    rw [assignCopy, if_neg xy, destroy_dead d]; rfl
  | moveAssign =>
    change assignMove h x y = _
    rw [assignMove, if_neg xy, destroy_dead d]; rfl
  | append =>
    change JsonNodes.append h x y = _
    obtain ⟨h1, fa, e1, _, _, _⟩ := newCopy_local w ry nd
    rw [JsonNodes.append, e1]
    change (setType h1 x (Cell.arr []) >>= _) = _
    rw [setType, read_dead (d.newCopy e1)]; rfl

/-- A dangling reference on the right. -/
theorem Binary.dead_right {h : Heap F} {x y j f} (k : Binary) (w : Fresh h) (d : Dead y h) (rx : Rep h x j f) (nd : f.Nodup) :
    k.run h x y = .error .ub := by
  have xy : x ≠ y := by
    rintro rfl
    obtain ⟨tl, rfl⟩ := rx.head
    exact rx.live x (by simp) d.2
  obtain ⟨tl, rfl⟩ := rx.head
  obtain ⟨h1, e1, _⟩ := destroyUnion_ok w rx nd
  cases k with
  | assign =>
    change assignCopy h x y = _
    rw [assignCopy, if_neg xy, e1]
    exact copy_dead (d.destroy e1)
  | moveAssign =>
    change assignMove h x y = _
    rw [assignMove, if_neg xy, e1]
    change moveUnion h1 x y = _
    rw [moveUnion, read_dead (d.destroy e1)]; rfl
  | append =>
    change JsonNodes.append h x y = _
    rw [JsonNodes.append, newCopy_dead d]; rfl

/-- A program with references comes to `o`. -/
def RComes (E : List Nat) (o : ROutcome F) (res : Res (Heap F × List Nat)) : Prop :=
  match o with
  | .undefined => res = .error .ub
  | .done vars refs => ∃ h xs, res = .ok (h, xs) ∧ Inv h vars E ∧ Standing h refs xs

theorem Standing.step {h h' : Heap F} {vars vars' : List (Json F)} {E refs xs} {s : Stmt F} (i : Inv h vars E)
    (st : Standing h refs xs) (m : meaning vars s = some vars') (e : s.run h = .ok h') :
    Standing h' (refs.map fun p => p.bind fun p => track vars p s) xs := by
  refine ⟨by simp [st.1], ?_⟩
  intro k o x hk hx
  rw [List.getElem?_map] at hk
  cases ho : refs[k]? with
  | none => simp [ho] at hk
  | some o0 =>
    simp only [ho, Option.map_some, Option.some.injEq] at hk
    subst hk
    obtain ⟨s0, n0⟩ := st.2 k o0 x ho hx
    cases o0 with
    | none => exact ⟨Dead.run s0 e, by simp⟩
    | some p =>
      refine ⟨i.track m e s0, ?_⟩
      intro c
      exact track_ne (fun d => n0 (by rw [d])) c rfl

theorem onPlaces_comes {h : Heap F} {vars : List (Json F)} {E refs xs} {s : Stmt F} {o : ROutcome F} (i : Inv h vars E)
    (st : Standing h refs xs) (m : onPlaces vars refs s = some o) {res : Res (Heap F × List Nat)}
    (hr : res = s.run h >>= fun h' => pure (h', xs)) : RComes E o res := by
  simp only [onPlaces, Option.map_eq_some_iff] at m
  obtain ⟨vars', m, rfl⟩ := m
  obtain ⟨h', e, i'⟩ := i.run m
  exact ⟨h', xs, by rw [hr, e]; rfl, i', st.step i m e⟩

theorem Inv.rstmt {h : Heap F} {vars : List (Json F)} {E refs xs} {s : RStmt F} {o : ROutcome F} (i : Inv h vars E)
    (st : Standing h refs xs) (m : rmeaning vars refs s = some o) : RComes E o (s.run (h, xs)) := by
  cases s with
  | bind P =>
    rw [rmeaning] at m
    cases t : target refs P with
    | none => rw [t] at m; cases m
    | some q =>
      cases q with
      | none =>
        obtain ⟨k, r, x, rfl, _, hx, d, hn⟩ := st.dangling t
        rw [t] at m
        change RComes E o (node h xs (.ref k r) >>= fun x => pure (h, xs ++ [x]))
        rw [hn]
        cases r with
        | nil =>
          cases m
          refine ⟨h, xs ++ [x], rfl, i, by simp [st.1], ?_⟩
          intro n o' z ho hz
          rw [List.getElem?_append] at ho hz
          rw [st.1] at ho
          split at ho
          · next c => rw [if_pos c] at hz; exact st.2 n o' z ho hz
          · next c =>
            rw [if_neg c] at hz
            cases hn : n - xs.length with
            | zero =>
              rw [hn] at ho hz
              cases ho; cases hz
              exact ⟨d, by simp⟩
            | succ => rw [hn] at ho; simp at ho
        | cons s r => cases m; exact rfl
      | some p =>
        rw [t] at m
        simp only [Option.map_eq_some_iff] at m
        obtain ⟨v, ev, rfl⟩ := m
        obtain ⟨x, f, hx, _⟩ := i.place ev
        change RComes E _ (node h xs P >>= fun x => pure (h, xs ++ [x]))
        rw [st.node t, hx]
        refine ⟨h, xs ++ [x], rfl, i, by simp [st.1], ?_⟩
        intro n o' z ho hz
        rw [List.getElem?_append] at ho hz
        rw [st.1] at ho
        split at ho
        · next c => rw [if_pos c] at hz; exact st.2 n o' z ho hz
        · next c =>
          rw [if_neg c] at hz
          cases hn : n - xs.length with
          | zero =>
            rw [hn] at ho hz
            cases ho; cases hz
            exact ⟨hx, fun c => look_ne ev (Option.some.inj c)⟩
          | succ => rw [hn] at ho; simp at ho
  | declare v =>
    refine onPlaces_comes i st m ?_
    change (newScalar h v >>= fun r => pushItem r.1 0 r.2 >>= fun h => pure (h, xs)) =
      (newScalar h v >>= fun r => pushItem r.1 0 r.2) >>= fun h' => pure (h', xs)
    rw [bind_assoc]
  | leave => exact onPlaces_comes i st m rfl
  | one k P =>
    rw [rmeaning] at m
    cases t : target refs P with
    | none => rw [t] at m; cases m
    | some q =>
      rw [t] at m
      cases q with
      | none =>
        cases m
        obtain ⟨k', r, x, rfl, _, hx, d, hn⟩ := st.dangling t
        change (node h xs (.ref k' r) >>= fun x => k.run h x >>= fun h => pure (h, xs)) = .error .ub
        rw [hn]
        cases r with
        | nil =>
          change (k.run h x >>= fun h => pure (h, xs)) = _
          rw [k.dead d]; rfl
        | cons => rfl
      | some p =>
        refine onPlaces_comes i st m ?_
        change (node h xs P >>= fun x => k.run h x >>= fun h => pure (h, xs)) = _
        rw [st.node t]
        cases k <;> simp only [stmt1, Stmt.run, Unary.run, bind_assoc, pure_bind]
  | two k P Q =>
    rw [rmeaning] at m
    change RComes E o (node h xs P >>= fun x => node h xs Q >>= fun y => k.run h x y >>= fun h => pure (h, xs))
    cases t : target refs P with
    | none => rw [t] at m; cases m
    | some q =>
    rw [t] at m
    cases t' : target refs Q with
    | none => rw [t'] at m; cases q <;> cases m
    | some q' =>
    rw [t'] at m
    cases q with
    | none =>
      obtain ⟨k', r, x, rfl, _, hx, d, hn⟩ := st.dangling t
      cases q' with
      | none => cases m
      | some p' =>
        simp only [Option.map_eq_some_iff] at m
        obtain ⟨v, ev, rfl⟩ := m
        obtain ⟨y, g, hy, ry, ndy, w, _⟩ := i.place ev
        rw [hn, st.node t', hy]
        cases r with
        | nil =>
          change (k.run h x y >>= fun h => pure (h, xs)) = _
          rw [k.dead_left w d ry ndy]; rfl
        | cons => rfl
    | some p =>
      cases q' with
      | none =>
        simp only [Option.map_eq_some_iff] at m
        obtain ⟨v, ev, rfl⟩ := m
        obtain ⟨k', r, y, rfl, _, hx, d, hn⟩ := st.dangling t'
        obtain ⟨x, f, hx, rx, ndx, w, _⟩ := i.place ev
        rw [hn, st.node t, hx]
        cases r with
        | nil =>
          change (k.run h x y >>= fun h => pure (h, xs)) = _
          rw [k.dead_right w d rx ndx]; rfl
        | cons => rfl
      | some p' =>
        refine onPlaces_comes i st m ?_
        rw [st.node t, st.node t']
        cases k <;> simp only [stmt2, Stmt.run, Binary.run, bind_assoc]

theorem Inv.refs {ss : List (RStmt F)} {h : Heap F} {vars : List (Json F)} {E refs xs} {o : ROutcome F} (i : Inv h vars E)
    (st : Standing h refs xs) (m : rmeanings vars refs ss = some o) : RComes E o (runRefs (h, xs) ss) := by
  induction ss generalizing h vars refs xs with
  | nil =>
    simp only [rmeanings, Option.some.injEq] at m
    subst m
    exact ⟨h, xs, rfl, i, st⟩
  | cons s ss ih =>
    rw [rmeanings] at m
    rw [runRefs, List.foldlM_cons]
    cases e : rmeaning vars refs s with
    | none => rw [e] at m; cases m
    | some o1 =>
      rw [e] at m
      have c := i.rstmt st e
      cases o1 with
      | undefined =>
        cases m
        have c : s.run (h, xs) = .error .ub := c
        rw [c]; rfl
      | done vars1 refs1 =>
        obtain ⟨h1, xs1, e1, i1, st1⟩ := c
        rw [e1]
        exact ih i1 st1 m

theorem Standing.refs {h : Heap F} {vars : List (Json F)} {E refs xs} (i : Inv h vars E) (st : Standing h refs xs) :
    Refs h vars refs xs := by
  refine ⟨st.1, ?_⟩
  intro k o x ho hx
  obtain ⟨s, ne⟩ := st.2 k o x ho hx
  cases o with
  | none => exact s.2
  | some p =>
    obtain ⟨fp, r, _⟩ := id i
    obtain ⟨v, ev⟩ := r.found s
    have lv : look vars p = some v := by
      cases p with
      | nil => exact absurd rfl ne
      | cons t p =>
        cases t with
        | key => simp [part] at ev
        | index => exact ev
    obtain ⟨x', f, hx', rx, _⟩ := i.place lv
    rw [show find h 0 p = .ok x from s] at hx'
    cases hx'
    exact ⟨v, lv, s, rx.facts.1⟩

end Caitlyn.JsonNodes
