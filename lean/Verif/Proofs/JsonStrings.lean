import Verif.Proofs.JsonStmts

/-!
# How many strings the statements on `JsonData` variables make
-/

namespace Caitlyn.JsonNodes
open Spec
variable {F : Type}

theorem bind_ok {α β : Type} {a : Res α} {f : α → Res β} {b : β} (h : (a >>= f) = .ok b) : ∃ x, a = .ok x ∧ f x = .ok b := by
  cases a with
  | error e => cases h
  | ok x => exact ⟨x, rfl, h⟩

theorem write_strings {h h' : Heap F} {x : Nat} {c : Cell F} (e : write h x c = .ok h') : h'.strings = h.strings := by
  rw [write] at e
  split at e
  · cases e; rfl
  · cases e

theorem free_strings {h h' : Heap F} {x : Nat} (e : free h x = .ok h') : h'.strings = h.strings := by
  rw [free] at e
  split at e
  · cases e; rfl
  · cases e

theorem foldlM_strings {α : Type} {step : Heap F → α → Res (Heap F)} (hs : ∀ h a h', step h a = .ok h' → h'.strings = h.strings)
    (l : List α) : ∀ {h h' : Heap F}, l.foldlM step h = .ok h' → h'.strings = h.strings := by
  induction l with
  | nil => intro h h' e; cases e; rfl
  | cons a l ih =>
    intro h h' e
    rw [List.foldlM_cons] at e
    obtain ⟨h1, e1, e2⟩ := bind_ok e
    rw [ih e2, hs _ _ _ e1]

theorem deleteNode_strings (n : Nat) : ∀ (h : Heap F) (x : Nat) (h' : Heap F), deleteNode n h x = .ok h' → h'.strings = h.strings := by
  induction n with
  | zero => intro h x h' e; cases e
  | succ n ih =>
    intro h x h' e
    rw [deleteNode] at e
    obtain ⟨c, _, e⟩ := bind_ok e
    obtain ⟨h1, e1, e2⟩ := bind_ok e
    rw [free_strings e2, foldlM_strings ih _ e1]

theorem destroyUnion_strings {h h' : Heap F} {x : Nat} (e : destroyUnion h x = .ok h') : h'.strings = h.strings := by
  rw [destroyUnion] at e
  obtain ⟨c, _, e⟩ := bind_ok e
  exact foldlM_strings (deleteNode_strings _) _ e

theorem pushItem_strings {h h' : Heap F} {x y : Nat} (e : pushItem h x y = .ok h') : h'.strings = h.strings := by
  rw [pushItem] at e
  obtain ⟨c, _, e⟩ := bind_ok e
  cases c with
  | arr l => exact write_strings e
  | _ => cases e

theorem pushMember_strings {h h' : Heap F} {x : Nat} {k : Str} {y : Nat} (e : pushMember h x k y = .ok h') : h'.strings = h.strings := by
  rw [pushMember] at e
  obtain ⟨c, _, e⟩ := bind_ok e
  cases c with
  | obj l => exact write_strings e
  | _ => cases e

theorem moveUnion_strings {h h' : Heap F} {x y : Nat} (e : moveUnion h x y = .ok h') : h'.strings = h.strings := by
  rw [moveUnion] at e
  obtain ⟨c, _, e⟩ := bind_ok e
  obtain ⟨h1, e1, e⟩ := bind_ok e
  rw [write_strings e, write_strings e1]

theorem setType_strings {h h' : Heap F} {x : Nat} {c : Cell F} (e : setType h x c = .ok h') : h'.strings = h.strings := by
  rw [setType] at e
  obtain ⟨old, _, e⟩ := bind_ok e
  by_cases t : old.type = c.type
  · rw [if_pos t] at e; cases e; rfl
  · rw [if_neg t] at e
    obtain ⟨h1, e1, e⟩ := bind_ok e
    rw [write_strings e, destroyUnion_strings e1]

theorem member_strings {h : Heap F} {x : Nat} {k : Str} {r : Heap F × Nat} (e : member h x k = .ok r) : r.1.strings = h.strings := by
  rw [member] at e
  obtain ⟨c, _, e⟩ := bind_ok e
  cases c with
  | obj l =>
    simp only at e
    cases hl : lookup k l with
    | some y => rw [hl] at e; cases e; rfl
    | none =>
      rw [hl] at e
      obtain ⟨h1, e1, e⟩ := bind_ok e
      cases e
      rw [pushMember_strings e1]; rfl
  | _ => cases e

theorem touch_strings {h : Heap F} {x : Nat} {k : Str} {r : Heap F × Nat} (e : touch h x k = .ok r) : r.1.strings = h.strings := by
  rw [touch] at e
  obtain ⟨h1, e1, e⟩ := bind_ok e
  rw [member_strings e, setType_strings e1]

theorem leave_strings {h h' : Heap F} (e : JsonNodes.leave h = .ok h') : h'.strings = h.strings := by
  rw [JsonNodes.leave] at e
  obtain ⟨c, _, e⟩ := bind_ok e
  cases c with
  | arr l =>
    simp only at e
    cases hl : l.getLast? with
    | none => rw [hl] at e; cases e
    | some y =>
      rw [hl] at e
      obtain ⟨h1, e1, e⟩ := bind_ok e
      rw [deleteNode_strings _ _ _ _ e, write_strings e1]
  | _ => cases e

theorem strs_value (v : Scalar F) : strs (value v) = v.strings := by
  cases v <;> simp [strs, value, Scalar.strings, strsList, strsMembers]

theorem scalar_type (v : Scalar F) : v.cell.type = .string ↔ v.strings = 1 := by
  cases v <;> simp [Scalar.cell, Cell.type, Scalar.strings]

theorem append_strings {h h' : Heap F} {x j f src w g} (wf : Fresh h) (r : Rep h x j f) (nd : f.Nodup) (rs : Rep h src w g)
    (nds : g.Nodup) (e : append h x src = .ok h') : h'.strings = h.strings + 2 * strs w := by
  obtain ⟨h1, fa, e1, ra, l1, s1⟩ := newCopy_local wf rs nds
  have nda : fa.Nodup := l1.nodup (by simp)
  have da : ∀ y ∈ fa, h.next ≤ y := fun y hy => by
    rcases l1.mem y hy with c | c
    · simp at c
    · exact c
  have r1 : Rep h1 x j f := l1.rep wf r (by simp)
  have flt := r.lt wf
  have dfa : ∀ y ∈ f, y ∉ fa := fun y hy c => by have := flt y hy; have := da y c; omega
  obtain ⟨c, js, tl, hc, ef, _⟩ := r1.children
  obtain ⟨h2, j2, f2, e2, r2, l2, hj⟩ := setType_local l1.fresh r1 nd .emptyArray hc
  have ra2 : Rep h2 h.next w fa := l2.rep l1.fresh ra (fun y hy c => dfa y c hy)
  obtain ⟨h3, fb, e3, rb, l3, s3⟩ := newCopy_local l2.fresh ra2 nda
  rw [append, e1] at e
  obtain ⟨_, e2', e⟩ := bind_ok (a := setType h1 x (Cell.arr [])) e
  rw [show setType h1 x (Cell.arr []) = .ok h2 from e2] at e2'
  cases e2'
  simp only [e3] at e
  obtain ⟨h4, e4, e⟩ := bind_ok (a := pushItem h3 x h2.next) e
  rw [deleteNode_strings _ _ _ _ e, pushItem_strings e4, s3, setType_strings e2, s1]
  omega

theorem assignCopy_strings {h h' : Heap F} {x j f src k g} (w : Fresh h) (r : Rep h x j f) (nd : f.Nodup)
    (rs : Rep h src k g) (nds : g.Nodup) (d : ∀ y ∈ g, y ∉ f) (e : assignCopy h x src = .ok h') :
    h'.strings = h.strings + strs k := by
  obtain ⟨h1, c, e1, a, hc, hc1, hn⟩ := destroyUnion_local w r nd
  have rs1 : Rep h1 src k g := a.rep w rs d
  have xf : x ∈ f := by obtain ⟨tl, rfl⟩ := r.head; simp
  obtain ⟨h2, new, e2, r2, nw, st⟩ := copyUnion_ok (h1.next + 1) h1 x src k g rs1 a.fresh (by simp [hc1])
    (fun c => d x c xf) (by have := a.fresh.length nds rs1.live; omega)
  have sg : src ∈ g := by obtain ⟨tl, rfl⟩ := rs.head; simp
  rw [assignCopy, if_neg (fun (c : x = src) => d src sg (c ▸ xf)), e1] at e
  have e' : copyUnion (h1.next + 1) h1 x src = .ok h' := e
  rw [e2] at e'
  cases e'
  rw [st, destroyUnion_strings e1]

/-- How many strings a statement makes. -/
theorem Inv.strings {h h' : Heap F} {vars vars' : List (Json F)} {E : List Nat} {s : Stmt F} (i : Inv h vars E)
    (m : meaning vars s = some vars') (e : s.run h = .ok h') : h'.strings = h.strings + made vars s := by
  cases s with
  | declare v =>
    rw [Stmt.run, newScalar] at e
    obtain ⟨⟨h1, y⟩, e1, e⟩ := bind_ok e
    obtain ⟨h0, e0, e1⟩ := bind_ok e1
    cases e1
    rw [pushItem_strings e, made, strs_value]
    simp only
    rw [write_strings e0]; rfl
  | declareCopy q =>
    simp only [meaning, Option.map_eq_some_iff] at m
    obtain ⟨v, eq, rfl⟩ := m
    obtain ⟨x, f, hx, rx, ndx, w, _⟩ := i.place eq
    obtain ⟨h1, f', e1, rv, l, st⟩ := newCopy_local w rx ndx
    rw [Stmt.run, hx] at e
    have e' : (newCopy h x >>= fun r => pushItem r.1 0 r.2) = .ok h' := e
    rw [e1] at e'
    rw [pushItem_strings (h := h1) e', st, made, eq]; rfl
  | declareMove q =>
    rw [Stmt.run] at e
    obtain ⟨x, _, e⟩ := bind_ok e
    obtain ⟨⟨h1, y⟩, e1, e⟩ := bind_ok e
    rw [newMove] at e1
    obtain ⟨h0, e0, e1⟩ := bind_ok e1
    cases e1
    rw [pushItem_strings e, moveUnion_strings e0]; rfl
  | leave => rw [leave_strings e]; rfl
  | set p v =>
    simp only [meaning, Option.map_eq_some_iff] at m
    obtain ⟨v', ep, rfl⟩ := m
    obtain ⟨x, f, hx, rx, ndx, w, K⟩ := i.place ep
    obtain ⟨c, js, tl, hc, ef, _⟩ := rx.children
    rw [Stmt.run, hx] at e
    have e' : assignScalar h x v = .ok h' := e
    rw [assignScalar, read, hc] at e'
    obtain ⟨h1, e1, e'⟩ := bind_ok (a := destroyUnion h x) e'
    obtain ⟨h2, e2, e'⟩ := bind_ok (a := write h1 x v.cell) e'
    cases e'
    have ty := rx.type hc
    simp only
    rw [write_strings e2, destroyUnion_strings e1, made, ep, strs_value, ty]
    simp only [Option.map_some, Option.some.injEq]
    cases v <;> cases v' <;> simp [Scalar.cell, Cell.type, Json.type, Scalar.strings]
  | assign p q =>
    simp only [meaning, Option.bind_eq_some_iff] at m
    obtain ⟨vp, ep, vq, eq, m⟩ := m
    by_cases c : p = q
    · subst c
      obtain ⟨x, f, hx, _⟩ := i.place ep
      rw [Stmt.run, hx] at e
      have e' : assignCopy h x x = .ok h' := e
      simp only [assignCopy, if_true, Except.ok.injEq] at e'
      subst e'
      simp [made]
    · rw [if_neg c] at m
      by_cases ap : Apart p q
      · obtain ⟨x, f, y, g, hx, hy, rx, ry, nd, w, K⟩ := i.places ap ep eq
        rw [List.nodup_append] at nd
        rw [Stmt.run, hx] at e
        have e2 : (find h 0 q >>= fun src => assignCopy h x src) = .ok h' := e
        rw [hy] at e2
        rw [assignCopy_strings w rx nd.1 ry nd.2.1 (fun z hz c => nd.2.2 z c z hz rfl) e2, made, if_neg c, eq]; rfl
      · simp [ap] at m
  | moveAssign p q =>
    rw [Stmt.run] at e
    obtain ⟨x, _, e⟩ := bind_ok e
    obtain ⟨y, _, e⟩ := bind_ok e
    rw [assignMove] at e
    by_cases c : x = y
    · rw [if_pos c] at e; cases e; rfl
    · rw [if_neg c] at e
      obtain ⟨h1, e1, e⟩ := bind_ok e
      rw [moveUnion_strings e, destroyUnion_strings e1]; rfl
  | touch p key =>
    rw [Stmt.run] at e
    obtain ⟨x, _, e⟩ := bind_ok e
    obtain ⟨⟨h1, y⟩, e1, e⟩ := bind_ok e
    cases e
    rw [touch_strings e1]; rfl
  | append p q =>
    simp only [meaning, Option.bind_eq_some_iff, Option.map_eq_some_iff] at m
    obtain ⟨vp, ep, vq, eq, rfl⟩ := m
    obtain ⟨x, f, hx, rx, ndx, w, K⟩ := i.place ep
    obtain ⟨y, g, hy, ry, ndy, _, _⟩ := i.place eq
    rw [Stmt.run, hx] at e
    have e2 : (find h 0 q >>= fun src => append h x src) = .ok h' := e
    rw [hy] at e2
    rw [append_strings w rx ndx ry ndy e2, made, eq]; rfl

end Caitlyn.JsonNodes
