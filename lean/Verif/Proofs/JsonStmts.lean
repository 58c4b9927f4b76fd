import Verif.Proofs.JsonPaths

/-!
# Statements on `JsonData` variables do what they mean
-/

namespace Caitlyn.JsonNodes
open Spec
variable {F : Type}

/-- From `h` to `h'`, of the nodes alive in `h` only `f` have changed; `f'` are those among `f` still alive, and new
ones. -/
structure Local (h h' : Heap F) (f f' : List Nat) : Prop where
  same : ∀ y, y ∉ f → y < h.next → h'.cells y = h.cells y
  mem : ∀ y ∈ f', y ∈ f ∨ h.next ≤ y
  live : ∀ y, h'.cells y ≠ none → y ∈ f' ∨ (y ∉ f ∧ h.cells y ≠ none)
  nodup : f.Nodup → f'.Nodup
  fresh : Fresh h'
  next : h.next ≤ h'.next

theorem Local.trans {h h1 h2 : Heap F} {f f1 f2} (a : Local h h1 f f1) (b : Local h1 h2 f1 f2) : Local h h2 f f2 := by
  have := a.next
  refine ⟨?_, ?_, ?_, fun n => b.nodup (a.nodup n), b.fresh, Nat.le_trans a.next b.next⟩
  · intro y hy hn
    rw [b.same y (fun c => ?_) (by omega), a.same y hy hn]
    rcases a.mem y c with c | c
    · exact hy c
    · omega
  · intro y hy
    rcases b.mem y hy with c | c
    · exact a.mem y c
    · exact .inr (by omega)
  · intro y hy
    rcases b.live y hy with c | c
    · exact .inl c
    · rcases a.live y c.2 with d | d
      · exact absurd d c.1
      · exact .inr d

theorem Local.framed {h h' : Heap F} {f f'} (a : Local h h' f f') (g : List Nat) (lt : ∀ y ∈ g, y < h.next)
    : Local h h' (g ++ f) (g ++ f') := by
  refine ⟨?_, ?_, ?_, ?_, a.fresh, a.next⟩
  · intro y hy hn
    simp at hy
    exact a.same y hy.2 hn
  · intro y hy
    simp only [List.mem_append] at hy ⊢
    rcases hy with c | c
    · exact .inl (.inl c)
    · rcases a.mem y c with d | d
      · exact .inl (.inr d)
      · exact .inr d
  · intro y hy
    simp only [List.mem_append, not_or]
    by_cases c : y ∈ g
    · exact .inl (.inl c)
    · rcases a.live y hy with d | d
      · exact .inl (.inr d)
      · exact .inr ⟨⟨c, d.1⟩, d.2⟩
  · intro n
    rw [List.nodup_append] at n ⊢
    refine ⟨n.1, a.nodup n.2.1, ?_⟩
    intro y hy z hz e
    subst e
    rcases a.mem y hz with d | d
    · exact n.2.2 y hy y d rfl
    · have := lt y hy; omega

theorem Local.perm {h h' : Heap F} {f f' g g'} (a : Local h h' f f') (p : f.Perm g) (q : f'.Perm g') :
    Local h h' g g' := by
  refine ⟨?_, ?_, ?_, ?_, a.fresh, a.next⟩
  · intro y hy; exact a.same y (fun c => hy (p.mem_iff.mp c))
  · intro y hy
    rw [← p.mem_iff]
    exact a.mem y (q.mem_iff.mpr hy)
  · intro y hy
    rw [← p.mem_iff, ← q.mem_iff]
    exact a.live y hy
  · intro n
    exact q.nodup_iff.mp (a.nodup (p.nodup_iff.mpr n))

theorem Rep.lt {h : Heap F} {x j f} (r : Rep h x j f) (w : Fresh h) : ∀ y ∈ f, y < h.next :=
  fun y hy => w.lt (r.live y hy)

theorem Reps.lt {h : Heap F} {x j f} (r : Reps h x j f) (w : Fresh h) : ∀ y ∈ f, y < h.next :=
  fun y hy => w.lt (r.live y hy)

theorem Local.rep {h h' : Heap F} {f f' x j g} (a : Local h h' f f') (w : Fresh h) (r : Rep h x j g)
    (d : ∀ y ∈ g, y ∉ f) : Rep h' x j g :=
  r.frame fun y hy => a.same y (d y hy) (r.lt w y hy)

/-- Release. -/
theorem Local.gone {h h' : Heap F} {f} (w : Fresh h) (g : Gone h h' f) : Local h h' f [] := by
  refine ⟨?_, by simp, ?_, by simp, ?_, by rw [g.2.1]; exact Nat.le_refl _⟩
  · intro y hy _; rw [g.1 y, if_neg hy]
  · intro y hy
    rw [g.1 y] at hy
    by_cases c : y ∈ f
    · simp [c] at hy
    · rw [if_neg c] at hy; exact .inr ⟨c, hy⟩
  · intro y hy
    rw [g.2.1] at hy
    rw [g.1 y, w y hy]; simp

/-- A node is overwritten. -/
theorem Local.write {h : Heap F} (w : Fresh h) {x : Nat} (l : h.cells x ≠ none) (c : Cell F) (n : Nat) :
    Local h { h with cells := upd h.cells x (some c), strings := n } [x] [x] := by
  have := w.lt l
  refine ⟨?_, by simp, ?_, by simp, ?_, Nat.le_refl _⟩
  · intro y hy _
    simp at hy
    simp [upd, hy]
  · intro y hy
    simp only [upd] at hy
    by_cases c : y = x
    · simp [c]
    · rw [if_neg c] at hy; simp [c, hy]
  · intro y hy
    change h.next ≤ y at hy
    simp only [upd]
    rw [if_neg (by omega)]
    exact w y hy

theorem Local.alloc {h : Heap F} (w : Fresh h) : Local h (alloc h).1 [] [h.next] := by
  refine ⟨?_, by simp, ?_, by simp, ?_, by simp [JsonNodes.alloc]⟩
  · intro y _ hy
    simp only [JsonNodes.alloc, upd]
    rw [if_neg (by omega)]
  · intro y hy
    simp only [JsonNodes.alloc, upd] at hy
    by_cases c : y = h.next
    · simp [c]
    · rw [if_neg c] at hy; simp [hy]
  · intro y hy
    simp only [JsonNodes.alloc, upd] at hy ⊢
    rw [if_neg (by omega)]
    exact w y (by omega)

theorem alloc_live (h : Heap F) : (alloc h).1.cells h.next = some .null := by simp [alloc, upd]

/-- A node gets new parts. -/
theorem Local.new {h h' : Heap F} {dst new} (w : Fresh h) (l : h.cells dst ≠ none) (n : New h h' dst new) :
    Local h h' [dst] (dst :: new) := by
  have := w.lt l
  refine ⟨?_, ?_, ?_, ?_, n.fresh, n.next⟩
  · intro y hy hn
    exact n.same y (by simpa using hy) (fun c => by have := n.ge y c; omega)
  · intro y hy
    rcases List.mem_cons.mp hy with c | c
    · simp [c]
    · exact .inr (n.ge y c)
  · intro y hy
    by_cases c : y = dst
    · simp [c]
    · by_cases d : y ∈ new
      · simp [d]
      · rw [n.same y c d] at hy
        simp [c, hy]
  · intro _
    rw [List.nodup_cons]
    exact ⟨fun c => by have := n.ge dst c; omega, n.nodup⟩

/-! ## Operations on a node -/

theorem destroyUnion_local {h : Heap F} {x j f} (w : Fresh h) (r : Rep h x j f) (nd : f.Nodup) :
    ∃ h' c, destroyUnion h x = .ok h' ∧ Local h h' f [x] ∧ h.cells x = some c ∧ h'.cells x = some c ∧
      h'.next = h.next := by
  obtain ⟨c, js, tl, hc, rfl, rs, _⟩ := r.children
  obtain ⟨h', e, g⟩ := destroyUnion_ok w r nd
  refine ⟨h', c, e, ?_, hc, ?_, g.2.1⟩
  · have a := (Local.gone w g).framed [x] (by simpa using w.lt (by simp [hc] : h.cells x ≠ none))
    simpa using a
  · rw [g.1 x, if_neg (List.nodup_cons.mp nd).1, hc]

theorem newCopy_local {h : Heap F} {src j f} (w : Fresh h) (r : Rep h src j f) (nd : f.Nodup) :
    ∃ h' f', newCopy h src = .ok (h', h.next) ∧ Rep h' h.next j f' ∧ Local h h' [] f' ∧
      h'.strings = h.strings + strs j := by
  have a := Local.alloc w
  have r1 : Rep (alloc h).1 src j f := a.rep w r (by simp)
  obtain ⟨h', new, e, rd, nw, st⟩ := copyUnion_ok (h.next + 1) (alloc h).1 h.next src j f r1 a.fresh
    (by simp [alloc_live]) (fun c => by have := r.lt w _ c; omega) (by have := w.length nd r.live; omega)
  refine ⟨h', h.next :: new, ?_, rd, a.trans (Local.new a.fresh (by simp [alloc_live]) nw), st⟩
  rw [newCopy]
  change (copyUnion (h.next + 1) (alloc h).1 h.next src >>= fun h' => pure (h', h.next)) = _
  rw [e]; rfl

theorem moveUnion_ok {h : Heap F} {dst src : Nat} {c : Cell F} (ne : dst ≠ src) (hs : h.cells src = some c)
    (hd : h.cells dst ≠ none) :
    moveUnion h dst src = .ok { h with cells := upd (upd h.cells dst (some c)) src (some .null) } := by
  rw [moveUnion, read, hs]
  change (write h dst c >>= fun h => write h src .null) = _
  rw [write_ok hd]
  exact write_ok (h := { h with cells := upd h.cells dst (some c) }) (by simp [upd, Ne.symm ne, hs]) _

/-- The parts of a node belong to another node. -/
theorem Rep.moved {h h' : Heap F} {src j tl c dst} (r : Rep h src j (src :: tl)) (hc : h.cells src = some c)
    (hd : h'.cells dst = some c) (e : ∀ y ∈ tl, h'.cells y = h.cells y) : Rep h' dst j (dst :: tl) := by
  cases r with
  | null c' => rw [hc] at c'; cases c'; exact .null hd
  | bool c' => rw [hc] at c'; cases c'; exact .bool hd
  | int c' => rw [hc] at c'; cases c'; exact .int hd
  | float c' => rw [hc] at c'; cases c'; exact .float hd
  | str c' => rw [hc] at c'; cases c'; exact .str hd
  | arr c' rs => rw [hc] at c'; cases c'; exact .arr hd (rs.frame e)
  | obj c' k rs => rw [hc] at c'; cases c'; exact .obj hd k (rs.frame e)

theorem moveUnion_local {h : Heap F} {dst src j tl} (w : Fresh h) (hd : h.cells dst ≠ none)
    (r : Rep h src j (src :: tl)) (nd : (dst :: src :: tl).Nodup) :
    ∃ h', moveUnion h dst src = .ok h' ∧ Rep h' dst j (dst :: tl) ∧ Rep h' src .null [src] ∧
      Local h h' (dst :: src :: tl) (dst :: src :: tl) := by
  obtain ⟨c, js, tl', hc, e, rs, _⟩ := r.children
  cases e
  simp only [List.nodup_cons, List.mem_cons, not_or] at nd
  have ne : dst ≠ src := nd.1.1
  refine ⟨_, moveUnion_ok ne hc hd, ?_, ?_, ?_⟩
  · refine r.moved hc (by simp [upd, ne]) ?_
    intro y hy
    have h1 : y ≠ src := fun c => nd.2.1 (c ▸ hy)
    have h2 : y ≠ dst := fun c => nd.1.2 (c ▸ hy)
    simp [upd, h1, h2]
  · exact .null (by simp [upd])
  · have a := Local.write w hd c h.strings
    have b := Local.write a.fresh (x := src) (by simp [upd, Ne.symm ne, hc]) .null h.strings
    have a' := a.framed (src :: tl) (fun y hy => r.lt w y hy)
    have b' := b.framed (dst :: tl) (fun y hy => by
      rcases List.mem_cons.mp hy with c | c
      · rw [c]; exact w.lt hd
      · exact r.lt w y (by simp [c]))
    refine (a'.perm (g := dst :: src :: tl) (g' := dst :: src :: tl) ?_ ?_).trans (b'.perm ?_ ?_)
    all_goals
      rw [List.perm_iff_count]
      intro a
      simp only [List.count_append, List.count_cons, List.count_nil]
      omega

theorem newScalar_local {h : Heap F} (w : Fresh h) (v : Scalar F) :
    ∃ h', newScalar h v = .ok (h', h.next) ∧ Rep h' h.next (value v) [h.next] ∧ Local h h' [] [h.next] := by
  have a := Local.alloc w
  refine ⟨_, ?_, ?_, a.trans (Local.write a.fresh (x := h.next) (by simp [alloc_live]) v.cell
    ((alloc h).1.strings + v.strings))⟩
  · rw [newScalar]
    change (write (alloc h).1 h.next v.cell >>= fun h' => pure ({ h' with strings := h'.strings + v.strings }, h.next)) = _
    rw [write_ok (by simp [alloc_live])]
    rfl
  · cases v
    · exact .null (by simp [upd, Scalar.cell])
    · exact .bool (by simp [upd, Scalar.cell])
    · exact .int (by simp [upd, Scalar.cell])
    · exact .float (by simp [upd, Scalar.cell])
    · exact .str (by simp [upd, Scalar.cell])
    · exact .arr (ids := []) (by simp [upd, Scalar.cell]) .nil
    · exact .obj (ms := []) (jms := []) (by simp [upd, Scalar.cell]) rfl .nil

theorem rep_scalar {h : Heap F} {x : Nat} {v : Scalar F} (e : h.cells x = some v.cell) : Rep h x (value v) [x] := by
  cases v
  · exact .null e
  · exact .bool e
  · exact .int e
  · exact .float e
  · exact .str e
  · exact .arr e .nil
  · exact .obj (jms := []) e rfl .nil

theorem assignScalar_local {h : Heap F} {x j f} (w : Fresh h) (r : Rep h x j f) (nd : f.Nodup) (v : Scalar F) :
    ∃ h', assignScalar h x v = .ok h' ∧ Rep h' x (value v) [x] ∧ Local h h' f [x] := by
  obtain ⟨h1, c, e, a, hc, hc1, _⟩ := destroyUnion_local w r nd
  refine ⟨_, ?_, ?_, a.trans (Local.write a.fresh (x := x) (by simp [hc1]) v.cell
    (if c.type = v.cell.type then h1.strings else h1.strings + v.strings))⟩
  · rw [assignScalar, read, hc]
    change (destroyUnion h x >>= fun h => write h x v.cell >>= fun h => pure _) = _
    rw [e]
    change (write h1 x v.cell >>= fun h => pure _) = _
    rw [write_ok (by simp [hc1])]
    rfl
  · exact rep_scalar (by simp [upd])

/-- `SetType` to an array or object: what is there already, or an empty one. -/
theorem setType_local {h : Heap F} {x j f} (w : Fresh h) (r : Rep h x j f) (nd : f.Nodup) (v : Scalar F) {c : Cell F}
    (hc : h.cells x = some c) :
    ∃ h' j' f', setType h x v.cell = .ok h' ∧ Rep h' x j' f' ∧ Local h h' f f' ∧
      j' = (if c.type = v.cell.type then j else value v) := by
  by_cases t : c.type = v.cell.type
  · refine ⟨h, j, f, ?_, r, ?_, by simp [t]⟩
    · rw [setType, read, hc]
      change (if c.type = v.cell.type then pure h else _) = _
      rw [if_pos t]; rfl
    · refine ⟨fun _ _ _ => rfl, fun _ hy => .inl hy, ?_, id, w, Nat.le_refl _⟩
      intro y hy
      by_cases c : y ∈ f <;> simp [c, hy]
  · obtain ⟨h1, c', e, a, hc', hc1, _⟩ := destroyUnion_local w r nd
    refine ⟨_, value v, [x], ?_, ?_, a.trans (Local.write a.fresh (x := x) (by simp [hc1]) v.cell h1.strings), by simp [t]⟩
    · rw [setType, read, hc]
      change (if c.type = v.cell.type then pure h else destroyUnion h x >>= fun h => write h x v.cell) = _
      rw [if_neg t, e]
      exact write_ok (by simp [hc1]) _
    · exact rep_scalar (by simp [upd])

theorem pos_mem (k : Str) (l : List Str) : k ∈ l ↔ pos k l < l.length := by
  induction l with
  | nil => simp [pos]
  | cons x xs ih =>
    rw [pos]
    by_cases e : x = k
    · simp [e]
    · simp [e, Ne.symm e, ih]

/-- A member is added, or found, in an object. -/
theorem Rep.withKey {h : Heap F} {x jms f} (w : Fresh h) (r : Rep h x (.obj jms) f) (nd : f.Nodup) (key : Str) :
    ∃ h' y f', member h x key = .ok (h', y) ∧ Rep h' x (Spec.withKey key (.obj jms)) f' ∧ Local h h' f f' := by
  cases r with
  | @obj _ ms _ tl hc ks rs =>
    have kl : ms.length = jms.length := by have := congrArg List.length ks; simpa using this
    have hl : (ms.map Prod.snd)[pos key (ms.map Prod.fst)]? = lookup key ms := (lookup_pos key ms).symm
    by_cases m : key ∈ jms.map Prod.fst
    · have : pos key (ms.map Prod.fst) < (ms.map Prod.snd).length := by
        have := (pos_mem key _).mp m
        rw [ks]; simpa [kl] using this
      rw [List.getElem?_eq_getElem this] at hl
      refine ⟨h, (ms.map Prod.snd)[pos key (ms.map Prod.fst)], x :: tl, ?_, ?_, ?_⟩
      · rw [member, read, hc]
        change (match lookup key ms with | some y => pure (h, y) | none => _) = _
        rw [← hl]; rfl
      · rw [Spec.withKey, if_pos m]; exact .obj hc ks rs
      · refine ⟨fun _ _ _ => rfl, fun _ hy => .inl hy, ?_, id, w, Nat.le_refl _⟩
        intro y hy
        by_cases c : y ∈ x :: tl
        · exact .inl c
        · exact .inr ⟨c, hy⟩
    · have : ¬ pos key (ms.map Prod.fst) < (ms.map Prod.snd).length := by
        rw [ks]
        intro c
        exact m ((pos_mem key _).mpr (by simpa [kl] using c))
      rw [List.getElem?_eq_none (by omega)] at hl
      have a := Local.alloc w
      have xl : x < h.next := w.lt (by simp [hc])
      have xc : (alloc h).1.cells x = some (.obj ms) := by rw [a.same x (by simp) xl, hc]
      have b := Local.write a.fresh (x := x) (by simp [xc]) (.obj (ms ++ [(key, h.next)])) (alloc h).1.strings
      refine ⟨{ (alloc h).1 with cells := upd (alloc h).1.cells x (some (.obj (ms ++ [(key, h.next)]))) }, h.next,
        x :: (tl ++ [h.next]), ?_, ?_, ?_⟩
      · rw [member, read, hc]
        change (match lookup key ms with
          | some y => pure (h, y)
          | none => pushMember (alloc h).1 x key h.next >>= fun h' => pure (h', h.next)) = _
        rw [← hl]
        simp only []
        rw [pushMember_ok xc]
        rfl
      · rw [Spec.withKey, if_neg m]
        have nx : h.next ≠ x := by omega
        refine .obj (ms := ms ++ [(key, h.next)]) (by simp [upd]) (by simp [ks]) ?_
        rw [List.map_append, List.map_append]
        have xt : x ∉ tl := (List.nodup_cons.mp nd).1
        refine Reps.append ?_ (Reps.one (.null ?_))
        · refine rs.frame fun y hy => ?_
          have yl := rs.lt w y hy
          have yx : y ≠ x := fun c => xt (c ▸ hy)
          have yn : y ≠ h.next := by omega
          simp [upd, alloc, yx, yn]
        · simp [upd, alloc, nx]
      · have a' := a.framed (x :: tl) (fun y hy => (Rep.obj hc ks rs).lt w y hy)
        have b' := b.framed (tl ++ [h.next]) (fun y hy => by
          rcases List.mem_append.mp hy with c | c
          · have := rs.lt w y c; have := a.next; omega
          · simp at c; subst c; exact a.fresh.lt (by simp [alloc_live]))
        refine (a'.perm (g := x :: tl) (g' := x :: (tl ++ [h.next])) ?_ ?_).trans (b'.perm ?_ ?_)
        all_goals
          rw [List.perm_iff_count]
          intro a
          simp only [List.count_append, List.count_cons, List.count_nil]
          omega

theorem Rep.type {h : Heap F} {x j f c} (r : Rep h x j f) (hc : h.cells x = some c) : c.type = j.type := by
  cases r with
  | null e | bool e | int e | float e | str e => rw [hc] at e; cases e; rfl
  | arr e => rw [hc] at e; cases e; rfl
  | obj e => rw [hc] at e; cases e; rfl

theorem touch_local {h : Heap F} {x j f} (w : Fresh h) (r : Rep h x j f) (nd : f.Nodup) (key : Str) :
    ∃ h' y f', touch h x key = .ok (h', y) ∧ Rep h' x (Spec.withKey key j) f' ∧ Local h h' f f' := by
  obtain ⟨c, js, tl, hc, ef, _⟩ := r.children
  obtain ⟨h1, j1, f1, e1, r1, l1, hj⟩ := setType_local w r nd .emptyObject hc
  have : ∃ jms, j1 = .obj jms ∧ Spec.withKey key j = Spec.withKey key (.obj jms) := by
    have ty := r.type hc
    subst hj
    cases j with
    | obj jms => exact ⟨jms, by rw [if_pos (by rw [ty]; rfl)], rfl⟩
    | _ => exact ⟨[], by rw [if_neg (by rw [ty]; simp [Json.type, Scalar.cell, Cell.type])]; rfl, rfl⟩
  obtain ⟨jms, rfl, ek⟩ := this
  obtain ⟨h2, y, f2, e2, r2, l2⟩ := r1.withKey l1.fresh (l1.nodup nd) key
  refine ⟨h2, y, f2, ?_, by rw [ek]; exact r2, l1.trans l2⟩
  rw [touch]
  change (setType h x (Scalar.emptyObject.cell) >>= fun h => member h x key) = _
  rw [e1]
  exact e2

theorem append_local {h : Heap F} {x j f src w g} (wf : Fresh h) (r : Rep h x j f) (nd : f.Nodup) (rs : Rep h src w g)
    (nds : g.Nodup) :
    ∃ h' f', append h x src = .ok h' ∧ Rep h' x (withItem w j) f' ∧ Local h h' f f' := by
  -- the argument
  obtain ⟨h1, fa, e1, ra, l1, _⟩ := newCopy_local wf rs nds
  have nda : fa.Nodup := l1.nodup (by simp)
  have da : ∀ y ∈ fa, h.next ≤ y := fun y hy => by
    rcases l1.mem y hy with c | c
    · simp at c
    · exact c
  have r1 : Rep h1 x j f := l1.rep wf r (by simp)
  have flt := r.lt wf
  have dfa : ∀ y ∈ f, y ∉ fa := fun y hy c => by have := flt y hy; have := da y c; omega
  -- the type
  obtain ⟨c, js, tl, hc, ef, _⟩ := r1.children
  obtain ⟨h2, j2, f2, e2, r2, l2, hj⟩ := setType_local l1.fresh r1 nd .emptyArray hc
  have nd2 := l2.nodup nd
  have ra2 : Rep h2 h.next w fa := l2.rep l1.fresh ra (fun y hy c => dfa y c hy)
  have df2 : ∀ y ∈ f2, y ∉ fa := fun y hy c => by
    rcases l2.mem y hy with d | d
    · exact dfa y d c
    · have := ra.lt l1.fresh y c; omega
  have : ∃ l, j2 = .arr l ∧ withItem w j = .arr (l ++ [w]) := by
    have ty := r1.type hc
    subst hj
    cases j with
    | arr l => exact ⟨l, by rw [if_pos (by rw [ty]; rfl)], rfl⟩
    | _ => exact ⟨[], by rw [if_neg (by rw [ty]; simp [Json.type, Scalar.cell, Cell.type])]; rfl, rfl⟩
  obtain ⟨l, rfl, ek⟩ := this
  -- the new node
  obtain ⟨h3, fb, e3, rb, l3, _⟩ := newCopy_local l2.fresh ra2 nda
  have db : ∀ y ∈ fb, h2.next ≤ y := fun y hy => by
    rcases l3.mem y hy with c | c
    · simp at c
    · exact c
  have r3 : Rep h3 x (.arr l) f2 := l3.rep l2.fresh r2 (by simp)
  have ra3 : Rep h3 h.next w fa := l3.rep l2.fresh ra2 (by simp)
  have f2lt := r2.lt l2.fresh
  have falt := ra2.lt l2.fresh
  cases r3 with
  | @arr _ ids _ t2 hx rt =>
  have xlt : x < h2.next := f2lt x (by simp)
  have xa : x ∉ fa := df2 x (by simp)
  have xt : x ∉ t2 := (List.nodup_cons.mp nd2).1
  have xb : x ∉ fb := fun c => by have := db x c; omega
  have e4 := pushItem_ok hx h2.next
  have l4 := Local.write l3.fresh (x := x) (by simp [hx]) (.arr (ids ++ [h2.next])) h3.strings
  generalize h4def : ({ h3 with cells := upd h3.cells x (some (.arr (ids ++ [h2.next]))) } : Heap F) = h4 at e4 l4
  have r4 : Rep h4 x (.arr (l ++ [w])) (x :: (t2 ++ fb)) := by
    refine .arr (ids := ids ++ [h2.next]) (by subst h4def; simp [upd]) (Reps.append ?_ (Reps.one ?_))
    · refine rt.frame fun y hy => l4.same y ?_ (rt.lt l3.fresh y hy)
      simp only [List.mem_singleton]
      exact fun c => xt (c ▸ hy)
    · refine rb.frame fun y hy => l4.same y ?_ (rb.lt l3.fresh y hy)
      simp only [List.mem_singleton]
      exact fun c => xb (c ▸ hy)
  have ra4 : Rep h4 h.next w fa := l4.rep l3.fresh ra3 (by
    intro y hy
    simp only [List.mem_singleton]
    exact fun c => xa (c ▸ hy))
  -- the argument is destroyed
  obtain ⟨h5, e5, g5⟩ := deleteNode_ok (h4.next + 1) h4 h.next w fa ra4 nda
    (by have := l4.fresh.length nda ra4.live; omega)
  have l5 := Local.gone l4.fresh g5
  refine ⟨h5, x :: (t2 ++ fb), ?_, ?_, ?_⟩
  · rw [append, e1]
    change (setType h1 x (Cell.arr []) >>= fun h' => newCopy h' h.next >>= fun r =>
      pushItem r.1 x r.2 >>= fun h' => deleteNode (h'.next + 1) h' h.next) = _
    rw [show setType h1 x (Cell.arr []) = .ok h2 from e2]
    change (newCopy h2 h.next >>= fun r =>
      pushItem r.1 x r.2 >>= fun h' => deleteNode (h'.next + 1) h' h.next) = _
    rw [e3]
    change (pushItem h3 x h2.next >>= fun h' => deleteNode (h'.next + 1) h' h.next) = _
    rw [e4]
    exact e5
  · rw [ek]
    refine l5.rep l4.fresh r4 ?_
    intro y hy c
    rcases List.mem_cons.mp hy with d | d
    · exact xa (d ▸ c)
    · rcases List.mem_append.mp d with d | d
      · exact df2 y (by simp [d]) c
      · have := db y d; have := falt y c; omega
  · have q1 := l1.framed f flt
    have q2 := (l2.framed fa (ra.lt l1.fresh))
    have q3 := (l3.framed (fa ++ x :: t2) (by
      intro y hy
      rcases List.mem_append.mp hy with c | c
      · exact falt y c
      · exact f2lt y c))
    have q4 := (l4.framed (fa ++ t2 ++ fb) (by
      intro y hy
      have := l3.next
      simp only [List.mem_append] at hy
      rcases hy with (c | c) | c
      · have := falt y c; omega
      · exact rt.lt l3.fresh y c
      · exact rb.lt l3.fresh y c))
    have q5 := l5.framed (x :: (t2 ++ fb)) (r4.lt l4.fresh)
    have q2' := q1.trans (q2.perm List.perm_append_comm (List.Perm.refl _))
    have q3' := q2'.trans (q3.perm (by simp) (List.Perm.refl _))
    have q4' := q3'.trans (q4.perm (g' := x :: (t2 ++ fb) ++ fa) (by
      rw [List.perm_iff_count]
      intro a
      simp only [List.count_append, List.count_cons, List.count_nil]
      omega) (by
      rw [List.perm_iff_count]
      intro a
      simp only [List.count_append, List.count_cons, List.count_nil]
      omega))
    have := q4'.trans q5
    simpa using this

theorem assignCopy_local {h : Heap F} {x j f src k g} (w : Fresh h) (r : Rep h x j f) (nd : f.Nodup)
    (rs : Rep h src k g) (nds : g.Nodup) (d : ∀ y ∈ g, y ∉ f) :
    ∃ h' f', assignCopy h x src = .ok h' ∧ Rep h' x k f' ∧ Local h h' f f' := by
  obtain ⟨h1, c, e, a, hc, hc1, hn⟩ := destroyUnion_local w r nd
  have rs1 : Rep h1 src k g := a.rep w rs d
  have xf : x ∈ f := by obtain ⟨tl, rfl⟩ := r.head; simp
  obtain ⟨h2, new, e2, r2, nw, _⟩ := copyUnion_ok (h1.next + 1) h1 x src k g rs1 a.fresh (by simp [hc1])
    (fun c => d x c xf) (by have := a.fresh.length nds rs1.live; omega)
  refine ⟨h2, x :: new, ?_, r2, a.trans (Local.new a.fresh (by simp [hc1]) nw)⟩
  have sg : src ∈ g := by obtain ⟨tl, rfl⟩ := rs.head; simp
  rw [assignCopy, if_neg (fun (c : x = src) => d src sg (c ▸ xf)), e]
  exact e2

theorem assignMove_local {h : Heap F} {x j f src k g} (w : Fresh h) (r : Rep h x j f) (nd : (f ++ g).Nodup)
    (rs : Rep h src k g) :
    ∃ h' f', assignMove h x src = .ok h' ∧ Rep h' x k f' ∧ Rep h' src .null [src] ∧
      Local h h' (f ++ g) (f' ++ [src]) := by
  obtain ⟨tl, rfl⟩ := rs.head
  rw [List.nodup_append] at nd
  obtain ⟨ndf, ndg, d⟩ := nd
  obtain ⟨h1, c, e, a, hc, hc1, hn⟩ := destroyUnion_local w r ndf
  have rs1 : Rep h1 src k (src :: tl) := a.rep w rs (fun y hy c => d y c y hy rfl)
  have xf : x ∈ f := by obtain ⟨tl, rfl⟩ := r.head; simp
  obtain ⟨h2, e2, r2, r3, l2⟩ := moveUnion_local a.fresh (dst := x) (by simp [hc1]) rs1
    (List.nodup_cons.mpr ⟨fun c => d x xf x c rfl, ndg⟩)
  refine ⟨h2, x :: tl, ?_, r2, r3, ?_⟩
  · rw [assignMove, if_neg (fun c => d x xf src (by simp) c), e]
    exact e2
  · have q1 := a.framed (src :: tl) (rs.lt w)
    refine (q1.perm List.perm_append_comm (?_ : List.Perm _ (x :: src :: tl))).trans (l2.perm (List.Perm.refl _) ?_)
    all_goals
      rw [List.perm_iff_count]
      intro a
      simp only [List.count_append, List.count_cons, List.count_nil]
      omega

theorem newMove_local {h : Heap F} {src k g} (w : Fresh h) (rs : Rep h src k g) (nd : g.Nodup) :
    ∃ h' f', newMove h src = .ok (h', h.next) ∧ Rep h' h.next k f' ∧ Rep h' src .null [src] ∧
      Local h h' g ([src] ++ f') := by
  obtain ⟨tl, rfl⟩ := rs.head
  have a := Local.alloc w
  have rs1 : Rep (alloc h).1 src k (src :: tl) := a.rep w rs (by simp)
  obtain ⟨h2, e2, r2, r3, l2⟩ := moveUnion_local a.fresh (dst := h.next) (by simp [alloc_live]) rs1
    (List.nodup_cons.mpr ⟨fun c => by have := rs.lt w _ c; omega, nd⟩)
  refine ⟨h2, h.next :: tl, ?_, r2, r3, ?_⟩
  · rw [newMove]
    change (moveUnion (alloc h).1 h.next src >>= fun h' => pure (h', h.next)) = _
    rw [e2]; rfl
  · have q1 := a.framed (src :: tl) (rs.lt w)
    refine (q1.perm (?_ : List.Perm _ (src :: tl)) (?_ : List.Perm _ (h.next :: src :: tl))).trans
      (l2.perm (List.Perm.refl _) ?_)
    all_goals
      rw [List.perm_iff_count]
      intro a
      simp only [List.count_append, List.count_cons, List.count_nil]
      omega

/-! ## The whole memory -/

/-- The variables have the values `vars`, each node belongs to one of them or is one of `extra`, and no node to two. -/
def Inv (h : Heap F) (vars : List (Json F)) (extra : List Nat) : Prop :=
  ∃ fp, Rep h 0 (.arr vars) fp ∧ (fp ++ extra).Nodup ∧ (∀ x, h.cells x ≠ none → x ∈ fp ++ extra) ∧
    (∀ x ∈ extra, h.cells x ≠ none) ∧ Fresh h

theorem Inv.step {h h' : Heap F} {vars' : List (Json F)} {fp ctx f f' extra E fp' : List Nat} (nd : (fp ++ E).Nodup)
    (cov : ∀ x, h.cells x ≠ none → x ∈ fp ++ E) (le : ∀ x ∈ E, h.cells x ≠ none) (w : Fresh h)
    (pm : fp.Perm (ctx ++ f)) (lt : ∀ y ∈ fp, y < h.next)
    (l : Local h h' f (f' ++ extra)) (lx : ∀ x ∈ extra, h'.cells x ≠ none) (pm' : fp'.Perm (ctx ++ f'))
    (r' : Rep h' 0 (.arr vars') fp') :
    Inv h' vars' (extra ++ E) := by
  have ndf : (E ++ ctx ++ f).Nodup := by
    have : (fp ++ E).Perm (E ++ ctx ++ f) := by
      rw [List.append_assoc]
      exact List.perm_append_comm.trans (pm.append_left E)
    exact this.nodup_iff.mp nd
  have q := l.framed (E ++ ctx) (fun y hy => by
    rcases List.mem_append.mp hy with c | c
    · exact w.lt (le y c)
    · exact lt y (pm.mem_iff.mpr (by simp [c])))
  have nd' := q.nodup ndf
  have pe : (fp' ++ (extra ++ E)).Perm (E ++ ctx ++ (f' ++ extra)) := by
    rw [List.perm_iff_count]
    intro a
    have := pm'.count_eq a
    simp only [List.count_append] at this ⊢
    omega
  refine ⟨fp', r', pe.nodup_iff.mpr nd', ?_, ?_, l.fresh⟩
  · intro x hx
    rw [pe.mem_iff]
    rcases q.live x hx with c | c
    · exact c
    · refine absurd (cov x c.2) (fun d => c.1 ?_)
      rcases List.mem_append.mp d with d | d
      · have := pm.mem_iff.mp d
        simp only [List.mem_append] at this ⊢
        rcases this with e | e <;> simp [e]
      · simp [d]
  · intro x hx
    rcases List.mem_append.mp hx with c | c
    · exact lx x c
    · rw [l.same x (fun d => (List.nodup_append.mp ndf).2.2 x (by simp [c]) x d rfl) (w.lt (le x c))]
      exact le x c

/-- A place is changed. -/
theorem Inv.place {h : Heap F} {vars : List (Json F)} {p : List Step} {v : Json F} {E : List Nat} (i : Inv h vars E)
    (e : look vars p = some v) :
    ∃ x f, find h 0 p = .ok x ∧ Rep h x v f ∧ f.Nodup ∧ Fresh h ∧
      ∀ h' v' f' extra, Rep h' x v' f' → Local h h' f (f' ++ extra) → (∀ x ∈ extra, h'.cells x ≠ none) →
        Inv h' (store vars p v') (extra ++ E) := by
  obtain ⟨fp, r, nd, cov, le, w⟩ := i
  obtain ⟨x, f, ctx, hx, rx, pm, K⟩ := r.focus (get_look e)
  have ndc := pm.nodup_iff.mp (List.nodup_append.mp nd).1
  refine ⟨x, f, hx, rx, (List.nodup_append.mp ndc).2.1, w, ?_⟩
  intro h' v' f' extra r' l lx
  obtain ⟨fp', pm', rr⟩ := K h' v' f' (fun y hy => l.same y (fun c => (List.nodup_append.mp ndc).2.2 y hy y c rfl)
    (r.lt w y (pm.mem_iff.mpr (by simp [hy])))) r'
  rw [put_store e] at rr
  exact Inv.step nd cov le w pm (r.lt w) l lx pm' rr

/-- Two places are changed. -/
theorem Inv.places {h : Heap F} {vars : List (Json F)} {p q : List Step} {v w : Json F} {E : List Nat} (i : Inv h vars E)
    (ap : Apart p q) (ep : look vars p = some v) (eq : look vars q = some w) :
    ∃ x f y g, find h 0 p = .ok x ∧ find h 0 q = .ok y ∧ Rep h x v f ∧ Rep h y w g ∧ (f ++ g).Nodup ∧ Fresh h ∧
      ∀ h' v' f' w' g', Rep h' x v' f' → Rep h' y w' g' → Local h h' (f ++ g) (f' ++ g') →
        Inv h' (store (store vars q w') p v') E := by
  obtain ⟨fp, r, nd, cov, le, wf⟩ := i
  obtain ⟨x, f, y, g, ctx, hx, hy, rx, ry, pm, K⟩ := r.focus2 ap (get_look ep) (get_look eq)
  have ndc := pm.nodup_iff.mp (List.nodup_append.mp nd).1
  refine ⟨x, f, y, g, hx, hy, rx, ry, (List.nodup_append.mp ndc).2.1, wf, ?_⟩
  intro h' v' f' w' g' r1 r2 l
  obtain ⟨fp', pm', rr⟩ := K h' v' f' w' g'
    (fun y hy => l.same y (fun c => (List.nodup_append.mp ndc).2.2 y hy y c rfl)
      (r.lt wf y (pm.mem_iff.mpr (by simp [hy])))) r1 r2
  rw [put_store eq, put_store ep] at rr
  exact Inv.step (extra := []) nd cov le wf pm (r.lt wf) (by simpa using l) (by simp) pm' rr

/-- A new variable. -/
theorem Inv.push {h : Heap F} {vars : List (Json F)} {y v f E} (i : Inv h vars (f ++ E)) (r : Rep h y v f) :
    ∃ h', pushItem h 0 y = .ok h' ∧ Inv h' (vars ++ [v]) E := by
  obtain ⟨fp, rr, nd, cov, le, w⟩ := i
  cases rr with
  | @arr _ ids _ tl hc rs =>
    have l := Local.write w (x := 0) (by simp [hc]) (.arr (ids ++ [y])) h.strings
    have n0 : ∀ z ∈ tl ++ (f ++ E), z ∉ [0] := by
      intro z hz c
      simp only [List.mem_singleton] at c
      rw [List.cons_append, List.nodup_cons] at nd
      exact nd.1 (c ▸ hz)
    refine ⟨_, pushItem_ok hc y, 0 :: (tl ++ f), ?_, ?_, ?_, ?_, l.fresh⟩
    · refine .arr (ids := ids ++ [y]) (by simp [upd]) (Reps.append ?_ (Reps.one ?_))
      · exact rs.frame fun z hz => l.same z (n0 z (by simp [hz])) (rs.lt w z hz)
      · exact l.rep w r (fun z hz => n0 z (by simp [hz]))
    · simpa using nd
    · intro x hx
      rcases l.live x hx with c | c
      · simp at c; simp [c]
      · simpa using cov x c.2
    · intro x hx
      rw [l.same x (n0 x (by simp [hx])) (w.lt (le x (by simp [hx])))]
      exact le x (by simp [hx])

theorem Inv.leave {h : Heap F} {vars : List (Json F)} {E : List Nat} (i : Inv h vars E) (ne : vars ≠ []) :
    ∃ h', leave h = .ok h' ∧ Inv h' vars.dropLast E := by
  obtain ⟨fp, rr, nd, cov, le, w⟩ := i
  cases rr with
  | @arr _ ids _ tl hc rs =>
    have len := rs.length
    have : ∃ a y, ids = a ++ [y] := by
      rcases List.eq_nil_or_concat ids with c | ⟨a, y, c⟩
      · subst c; exact absurd (List.length_eq_zero_iff.mp (by simpa using len.symm)) ne
      · exact ⟨a, y, by simpa using c⟩
    obtain ⟨a, y, rfl⟩ := this
    obtain ⟨ja, jb, fa, fb, rfl, rfl, ra, rb⟩ := rs.split
    cases rb with
    | @cons _ j f1 _ jn fn r rn =>
    cases rn
    have l := Local.write w (x := 0) (by simp [hc]) (.arr a) h.strings
    rw [List.append_nil] at nd cov
    have ndE := nd
    rw [List.nodup_append] at ndE
    have nd := ndE.1
    rw [List.nodup_cons, List.nodup_append] at nd
    have n0 : ∀ z ∈ fa ++ f1, z ∉ [0] := by
      intro z hz c
      simp only [List.mem_singleton] at c
      exact nd.1 (c ▸ hz)
    generalize h1def : ({ h with cells := upd h.cells 0 (some (.arr a)) } : Heap F) = h1 at l
    have r1 : Rep h1 y j f1 := l.rep w r (fun z hz => n0 z (by simp [hz]))
    have w1 : Rep h1 0 (.arr ja) (0 :: fa) := by
      refine .arr (ids := a) (by subst h1def; simp [upd]) (ra.frame fun z hz => l.same z (n0 z (by simp [hz])) (ra.lt w z hz))
    obtain ⟨h2, e2, g2⟩ := deleteNode_ok (h1.next + 1) h1 y j f1 r1 nd.2.2.1
      (by have := l.fresh.length nd.2.2.1 r1.live; omega)
    have l2 := Local.gone l.fresh g2
    refine ⟨h2, ?_, 0 :: fa, ?_, ?_, ?_, ?_, l2.fresh⟩
    · rw [JsonNodes.leave, read, hc]
      change (match (a ++ [y]).getLast? with
        | some z => write h 0 (.arr (a ++ [y]).dropLast) >>= fun h => deleteNode (h.next + 1) h z
        | none => .error .ub) = _
      rw [List.getLast?_append]
      simp only [List.getLast?_singleton, Option.some_or, List.dropLast_concat]
      have : write h 0 (.arr (a ++ [y]).dropLast) = .ok h1 := by
        rw [List.dropLast_concat, write_ok (by simp [hc]), h1def]
      simp only [List.dropLast_concat] at this
      rw [this]
      exact e2
    · rw [List.dropLast_concat]
      refine l2.rep l.fresh w1 ?_
      intro z hz c
      rcases List.mem_cons.mp hz with d | d
      · exact n0 z (by simp [c]) (by simp [d])
      · exact nd.2.2.2 z d z c rfl
    · rw [List.nodup_append]
      refine ⟨List.nodup_cons.mpr ⟨fun c => nd.1 (by simp [c]), nd.2.1⟩, ndE.2.1, ?_⟩
      intro z hz z' hz' e
      refine ndE.2.2 z ?_ z' hz' e
      rcases List.mem_cons.mp hz with d | d <;> simp [d]
    · intro x hx
      rcases l2.live x hx with c | c
      · simp at c
      · rcases l.live x c.2 with d | d
        · simp at d; simp [d]
        · have := cov x d.2
          simp only [List.cons_append, List.mem_cons, List.mem_append] at this ⊢
          rcases this with e | (e | e) | e
          · exact .inl e
          · exact .inr (.inl e)
          · exact absurd e c.1
          · exact .inr (.inr e)
    · intro x hx
      have x0 : x ∉ [0] := by
        simp only [List.mem_singleton]
        exact fun c => ndE.2.2 0 (by simp) x hx c.symm
      have xf : x ∉ f1 := fun c => ndE.2.2 x (by simp [c]) x hx rfl
      have xl := w.lt (le x hx)
      rw [l2.same x xf (by have := l.next; omega), l.same x x0 xl]
      exact le x hx

theorem store_self {vars : List (Json F)} {p : List Step} {v : Json F} (e : look vars p = some v) :
    store vars p v = vars := by
  have := put_get (get_look e)
  rw [put_store e] at this
  simpa using this

/-- Every statement that has a meaning does what it means. -/
theorem Inv.run {h : Heap F} {vars vars' : List (Json F)} {E : List Nat} {s : Stmt F} (i : Inv h vars E)
    (m : meaning vars s = some vars') : ∃ h', s.run h = .ok h' ∧ Inv h' vars' E := by
  cases s with
  | declare v =>
    simp only [meaning, Option.some.injEq] at m
    subst m
    obtain ⟨fp, r, nd, cov, le, w⟩ := i
    obtain ⟨h1, e, rv, l⟩ := newScalar_local w v
    have i1 : Inv h1 vars ([h.next] ++ E) := Inv.step (f' := []) nd cov le w (by simp : fp.Perm (fp ++ []))
      (r.lt w) (by simpa using l) rv.live (by simp) (l.rep w r (by simp))
    obtain ⟨h2, e2, i2⟩ := i1.push rv
    refine ⟨h2, ?_, i2⟩
    rw [Stmt.run, e]; exact e2
  | declareCopy q =>
    simp only [meaning, Option.map_eq_some_iff] at m
    obtain ⟨v, eq, rfl⟩ := m
    obtain ⟨x, f, hx, rx, ndx, w, _⟩ := i.place eq
    obtain ⟨fp, r, nd, cov, le, _⟩ := i
    obtain ⟨h1, f', e, rv, l, _⟩ := newCopy_local w rx ndx
    have i1 : Inv h1 vars (f' ++ E) := Inv.step (f' := []) nd cov le w (by simp : fp.Perm (fp ++ []))
      (r.lt w) (by simpa using l) rv.live (by simp) (l.rep w r (by simp))
    obtain ⟨h2, e2, i2⟩ := i1.push rv
    refine ⟨h2, ?_, i2⟩
    rw [Stmt.run, hx]
    change (newCopy h x >>= fun r => pushItem r.1 0 r.2) = _
    rw [e]; exact e2
  | declareMove q =>
    simp only [meaning, Option.map_eq_some_iff] at m
    obtain ⟨v, eq, rfl⟩ := m
    obtain ⟨x, f, hx, rx, ndx, w, K⟩ := i.place eq
    obtain ⟨h1, f', e, rv, rn, l⟩ := newMove_local w rx ndx
    have i1 := K h1 .null [x] f' rn l rv.live
    obtain ⟨h2, e2, i2⟩ := i1.push rv
    refine ⟨h2, ?_, i2⟩
    rw [Stmt.run, hx]
    change (newMove h x >>= fun r => pushItem r.1 0 r.2) = _
    rw [e]; exact e2
  | leave =>
    simp only [meaning] at m
    by_cases c : vars = []
    · simp [c] at m
    · simp only [c, if_false, Option.some.injEq] at m
      subst m
      exact i.leave c
  | set p v =>
    simp only [meaning, Option.map_eq_some_iff] at m
    obtain ⟨v', ep, rfl⟩ := m
    obtain ⟨x, f, hx, rx, ndx, w, K⟩ := i.place ep
    obtain ⟨h1, e, rv, l⟩ := assignScalar_local w rx ndx v
    refine ⟨h1, ?_, K h1 _ [x] [] rv (by simpa using l) (by simp)⟩
    rw [Stmt.run, hx]; exact e
  | assign p q =>
    simp only [meaning, Option.bind_eq_some_iff] at m
    obtain ⟨vp, ep, vq, eq, m⟩ := m
    by_cases c : p = q
    · subst c
      simp only [if_true, Option.some.injEq] at m
      subst m
      obtain ⟨x, f, hx, _⟩ := i.place ep
      refine ⟨h, ?_, i⟩
      rw [Stmt.run, hx]
      change assignCopy h x x = _
      simp [assignCopy]
    · rw [if_neg c] at m
      by_cases ap : Apart p q
      · simp only [ap, if_true, Option.some.injEq] at m
        subst m
        obtain ⟨x, f, y, g, hx, hy, rx, ry, nd, w, K⟩ := i.places ap ep eq
        have nd' := nd
        rw [List.nodup_append] at nd
        obtain ⟨h1, f', e, rv, l⟩ := assignCopy_local w rx nd.1 ry nd.2.1 (fun z hz c => nd.2.2 z c z hz rfl)
        have l' := (l.framed g (ry.lt w)).perm List.perm_append_comm List.perm_append_comm
        have i' := K h1 _ f' _ g rv (l.rep w ry fun z hz c => nd.2.2 z c z hz rfl) l'
        rw [store_self eq] at i'
        refine ⟨h1, ?_, i'⟩
        rw [Stmt.run, hx]
        change (find h 0 q >>= fun src => assignCopy h x src) = _
        rw [hy]; exact e
      · simp [ap] at m
  | moveAssign p q =>
    simp only [meaning, Option.bind_eq_some_iff] at m
    obtain ⟨vp, ep, vq, eq, m⟩ := m
    by_cases c : p = q
    · subst c
      simp only [if_true, Option.some.injEq] at m
      subst m
      obtain ⟨x, f, hx, _⟩ := i.place ep
      refine ⟨h, ?_, i⟩
      rw [Stmt.run, hx]
      change assignMove h x x = _
      simp [assignMove]
    · rw [if_neg c] at m
      by_cases ap : Apart p q
      · simp only [ap, if_true, Option.some.injEq] at m
        subst m
        obtain ⟨x, f, y, g, hx, hy, rx, ry, nd, w, K⟩ := i.places ap ep eq
        obtain ⟨h1, f', e, rv, rn, l⟩ := assignMove_local w rx nd ry
        refine ⟨h1, ?_, K h1 _ f' _ [y] rv rn l⟩
        rw [Stmt.run, hx]
        change (find h 0 q >>= fun src => assignMove h x src) = _
        rw [hy]; exact e
      · simp [ap] at m
  | touch p key =>
    simp only [meaning, Option.map_eq_some_iff] at m
    obtain ⟨v', ep, rfl⟩ := m
    obtain ⟨x, f, hx, rx, ndx, w, K⟩ := i.place ep
    obtain ⟨h1, y, f', e, rv, l⟩ := touch_local w rx ndx key
    refine ⟨h1, ?_, K h1 _ f' [] rv (by simpa using l) (by simp)⟩
    rw [Stmt.run, hx]
    change (touch h x key >>= fun r => pure r.1) = _
    rw [e]; rfl
  | append p q =>
    simp only [meaning, Option.bind_eq_some_iff, Option.map_eq_some_iff] at m
    obtain ⟨vp, ep, vq, eq, rfl⟩ := m
    obtain ⟨x, f, hx, rx, ndx, w, K⟩ := i.place ep
    obtain ⟨y, g, hy, ry, ndy, _, _⟩ := i.place eq
    obtain ⟨h1, f', e, rv, l⟩ := append_local w rx ndx ry ndy
    refine ⟨h1, ?_, K h1 _ f' [] rv (by simpa using l) (by simp)⟩
    rw [Stmt.run, hx]
    change (find h 0 q >>= fun src => append h x src) = _
    rw [hy]; exact e

end Caitlyn.JsonNodes
