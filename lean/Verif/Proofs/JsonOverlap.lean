import Verif.Proofs.JsonStmts
import Verif.Spec.JsonExact

/-!
# Assignments between a value and a part of it, and `RemoveMember`
-/

namespace Caitlyn.JsonNodes
open Spec
variable {F : Type}

/-! ## Paths -/

theorem find_append (h : Heap F) (x : Nat) (p r : List Step) :
    find h x (p ++ r) = find h x p >>= fun y => find h y r := by
  induction p generalizing x with
  | nil => rfl
  | cons s p ih =>
    rw [List.cons_append, find, find]
    cases hc : read h x with
    | error e => rfl
    | ok c =>
      cases s with
      | key k =>
        cases c with
        | obj ms =>
          change (match lookup k ms with | some y => find h y (p ++ r) | none => .error .outOfRange) =
            (match lookup k ms with | some y => find h y p | none => .error .outOfRange) >>= fun y => find h y r
          cases lookup k ms with
          | none => rfl
          | some y => exact ih y
        | _ => rfl
      | index i =>
        cases c with
        | arr l =>
          change (match l[i]? with | some y => find h y (p ++ r) | none => .error .outOfRange) =
            (match l[i]? with | some y => find h y p | none => .error .outOfRange) >>= fun y => find h y r
          cases l[i]? with
          | none => rfl
          | some y => exact ih y
        | _ => rfl

theorem part_append (p r : List Step) (j : Json F) : part (p ++ r) j = (part p j).bind (part r) := by
  induction p generalizing j with
  | nil => rfl
  | cons s p ih =>
    rw [List.cons_append, get_slot, get_slot]
    cases slot s j with
    | none => rfl
    | some i =>
      simp only [Option.bind_some]
      cases (kids j)[i]? with
      | none => rfl
      | some v => simpa using ih v

theorem put_append {p r : List Step} {j v : Json F} (u : Json F) (e : part p j = some v) :
    put u (p ++ r) j = put (put u r v) p j := by
  induction p generalizing j with
  | nil => simp only [part, Option.some.injEq] at e; simp [put, e]
  | cons s p ih =>
    rw [List.cons_append, put_slot, put_slot]
    rw [get_slot] at e
    cases hs : slot s j with
    | none => rfl
    | some i =>
      simp only [hs, Option.bind_some] at e ⊢
      cases hi : (kids j)[i]? with
      | none => simp [hi] at e
      | some w =>
        simp only [hi, Option.bind_some] at e
        rw [modify_set _ hi, modify_set _ hi, ih e]

theorem look_part {vars : List (Json F)} {p r : List Step} {v : Json F} (e : look vars p = some v) :
    look vars (p ++ r) = part r v := by
  cases p with
  | nil => simp [look] at e
  | cons s p =>
    cases s with
    | key => simp [look] at e
    | index i =>
      simp only [look, Option.bind_eq_some_iff] at e
      obtain ⟨w, h1, h2⟩ := e
      simp only [List.cons_append, look, h1, Option.bind_some]
      rw [part_append, h2]; rfl

theorem store_append {vars : List (Json F)} {p r : List Step} {v : Json F} (u : Json F) (e : look vars p = some v) :
    store vars (p ++ r) u = store vars p (put u r v) := by
  cases p with
  | nil => simp [look] at e
  | cons s p =>
    cases s with
    | key => simp [look] at e
    | index i =>
      simp only [look, Option.bind_eq_some_iff] at e
      obtain ⟨w, h1, h2⟩ := e
      simp only [List.cons_append, store]
      rw [modify_set _ h1, modify_set _ h1, put_append u h2]

/-- A proper part of a value is below its node. -/
theorem Rep.inside {h : Heap F} {x j tl w} {s : Step} {p : List Step} (rr : Rep h x j (x :: tl))
    (e : part (s :: p) j = some w) :
    ∃ y g ctx, find h x (s :: p) = .ok y ∧ Rep h y w g ∧ tl.Perm (ctx ++ g) := by
  rw [get_slot] at e
  cases hs : slot s j with
  | none => simp [hs] at e
  | some i =>
    simp only [hs, Option.bind_some] at e
    cases hk : (kids j)[i]? with
    | none => simp [hk] at e
    | some v =>
      simp only [hk, Option.bind_some] at e
      obtain ⟨c, tl', hc, ef, rs, hf, hb⟩ := rr.parts hs
      cases ef
      obtain ⟨z, f, ctx, hz, rz, pm, K⟩ := rs.focus hk
      obtain ⟨y, g, ctx2, hy, ry, pm2, K2⟩ := rz.focus e
      refine ⟨y, g, ctx ++ ctx2, ?_, ry, ?_⟩
      · rw [hf z p hz]; exact hy
      · rw [List.append_assoc]; exact pm.trans (pm2.append_left _)

/-! ## A part assigned to the whole -/

theorem part_into_whole {h : Heap F} {x y j tl} (w : Fresh h) (r : Rep h x j (x :: tl)) (nd : (x :: tl).Nodup)
    (hy : y ∈ tl) : assignCopy h x y = .error .ub ∧ assignMove h x y = .error .ub := by
  obtain ⟨h1, e, g⟩ := destroyUnion_ok w r nd
  have ne : x ≠ y := fun c => (List.nodup_cons.mp nd).1 (c ▸ hy)
  have hn : h1.cells y = none := by rw [g.1 y, if_pos hy]
  constructor
  · rw [assignCopy, if_neg ne, e]
    change copyUnion (h1.next + 1) h1 x y = _
    rw [copyUnion, read, hn]; rfl
  · rw [assignMove, if_neg ne, e]
    change moveUnion h1 x y = _
    rw [moveUnion, read, hn]; rfl

/-! ## The whole moved into a part -/

theorem move_into_part {h : Heap F} {x y j k tl g ctx} (w : Fresh h) (r : Rep h x j (x :: tl)) (nd : (x :: tl).Nodup)
    (ry : Rep h y k g) (pm : tl.Perm (ctx ++ g)) :
    ∃ h', assignMove h y x = .ok h' ∧ Rep h' x .null [x] ∧ Local h h' (x :: tl) ([x] ++ (ctx ++ [y])) ∧
      (∀ z ∈ ctx ++ [y], h'.cells z ≠ none) := by
  have pm' : (x :: tl).Perm ((x :: ctx) ++ g) := by simpa using pm
  have nd' := pm'.nodup_iff.mp nd
  rw [List.nodup_append] at nd'
  have yg : y ∈ g := by obtain ⟨t, rfl⟩ := ry.head; simp
  have ne : y ≠ x := fun c => nd'.2.2 x (by simp) y yg c.symm
  obtain ⟨h1, c, e1, l1, hc, hc1, hn⟩ := destroyUnion_local w ry nd'.2.1
  obtain ⟨cx, _, _, hx, _, _⟩ := r.children
  have lt := r.lt w
  have hx1 : h1.cells x = some cx := by
    rw [l1.same x (fun d => nd'.2.2 x (by simp) x d rfl) (lt x (by simp)), hx]
  have lc : ∀ z ∈ x :: ctx, z < h.next := fun z hz => lt z (pm'.mem_iff.mpr (by simp at hz ⊢; rcases hz with c | c <;> simp [c]))
  have a := Local.write l1.fresh (x := y) (by simp [hc1]) cx h1.strings
  have b := Local.write a.fresh (x := x) (by simp [upd, Ne.symm ne, hx1]) .null h1.strings
  have l1' := l1.framed (x :: ctx) lc
  have a' := a.framed (x :: ctx) (fun z hz => by have := lc z hz; omega)
  have yl : y < h1.next := l1.fresh.lt (by simp [hc1])
  have b' := b.framed (ctx ++ [y]) (fun z hz => by
    change z < h1.next
    rcases List.mem_append.mp hz with c | c
    · have := lc z (by simp [c]); omega
    · simp at c; rw [c]; exact yl)
  refine ⟨_, ?_, .null (by simp [upd]), ((l1'.trans a').perm pm'.symm ?_).trans (b'.perm (List.Perm.refl _) ?_), ?_⟩
  · rw [assignMove, if_neg ne, e1]
    exact moveUnion_ok ne hx1 (by simp [hc1])
  · rw [List.perm_iff_count]
    intro a
    simp only [List.count_append, List.count_cons, List.count_nil]
    omega
  · rw [List.perm_iff_count]
    intro a
    simp only [List.count_append, List.count_cons, List.count_nil]
    omega
  · intro z hz
    simp only [upd]
    split
    · simp
    · split
      · simp
      · next d1 d2 =>
        rcases List.mem_append.mp hz with c | c
        · rw [l1.same z (fun d => nd'.2.2 z (by simp [c]) z d rfl) (lc z (by simp [c]))]
          exact r.live z (pm'.mem_iff.mpr (by simp [c]))
        · simp at c; exact absurd c d2

/-! ## The whole copied into a part -/

theorem New.trans {h h1 h2 : Heap F} {d : Nat} {n1 n2 : List Nat} (a : New h h1 d n1) (b : New h1 h2 d n2)
    (lt : ∀ y ∈ n1, y < h1.next) : New h h2 d (n1 ++ n2) := by
  have := a.next
  refine ⟨?_, ?_, ?_, b.fresh, Nat.le_trans a.next b.next⟩
  · intro y hy hn
    simp only [List.mem_append, not_or] at hn
    rw [b.same y hy hn.2, a.same y hy hn.1]
  · intro y hy
    rcases List.mem_append.mp hy with c | c
    · exact a.ge y c
    · have := b.ge y c; omega
  · rw [List.nodup_append]
    refine ⟨a.nodup, b.nodup, ?_⟩
    intro y hy z hz e
    have := lt y hy
    have := b.ge z hz
    omega

/-- One item is copied, of which the destination may be a part. -/
theorem copy_one {α : Type} {n : Nat} (dst : Nat) (ptr : α → Nat) (mk : α → Nat → α) (wrap : List α → Cell F)
    (step : Heap F → α → Res (Heap F)) (push : Heap F → α → Nat → Res (Heap F))
    (hstep : ∀ h a, step h a = copyUnion n (alloc h).1 (alloc h).2 (ptr a) >>= fun h2 => push h2 a (alloc h).2)
    (hpush : ∀ h l a y, h.cells dst = some (wrap l) →
      push h a y = .ok { h with cells := upd h.cells dst (some (wrap (l ++ [mk a y]))) })
    {h : Heap F} {z : α} {j fz done} (r : Rep h (ptr z) j fz) (w : Fresh h) (hd : h.cells dst = some (wrap done))
    (len : fz.length ≤ n) :
    ∃ h' new, step h z = .ok h' ∧ h'.cells dst = some (wrap (done ++ [mk z h.next])) ∧
      Rep h' h.next j (h.next :: new) ∧ New h h' dst (h.next :: new) := by
  have a := Local.alloc w
  have dlt : dst < h.next := w.lt (by simp [hd])
  have ra : Rep (alloc h).1 (ptr z) j fz := a.rep w r (by simp)
  obtain ⟨h2, n1, e2, r2, nw, st⟩ := copyUnion_ok n (alloc h).1 (alloc h).2 (ptr z) j fz ra a.fresh (by simp [alloc, upd])
    (fun c => by have := r.lt w _ c; simp [alloc] at this) len
  have ge1 : ∀ y ∈ n1, h.next + 1 ≤ y := fun y hy => nw.ge y hy
  have nx : h.next + 1 ≤ h2.next := nw.next
  have hd2 : h2.cells dst = some (wrap done) := by
    rw [nw.same dst (by simp [alloc]; omega) (fun c => by have := ge1 dst c; omega), a.same dst (by simp) dlt, hd]
  have e3 := hpush h2 done z (alloc h).2 hd2
  refine ⟨_, n1, by rw [hstep, e2]; exact e3, by simp [upd, alloc], ?_, ?_, ?_, ?_, ?_, ?_⟩
  · refine r2.frame fun y hy => ?_
    have : y ≠ dst := by
      rcases List.mem_cons.mp hy with rfl | hy
      · simp only [alloc]; omega
      · have := ge1 y hy; omega
    simp [upd, this]
  · intro y hy hn
    simp only [List.mem_cons, not_or] at hn
    simp only [upd]
    rw [if_neg hy, nw.same y hn.1 hn.2]
    simp only [alloc, upd]
    rw [if_neg hn.1]
  · intro y hy
    rcases List.mem_cons.mp hy with rfl | hy
    · exact Nat.le_refl _
    · have := ge1 y hy; omega
  · exact List.nodup_cons.mpr ⟨fun c => by have := ge1 _ c; omega, nw.nodup⟩
  · intro y hy
    change h2.next ≤ y at hy
    simp only [upd]
    rw [if_neg (by omega)]
    exact nw.fresh y hy
  · change h.next ≤ h2.next; omega

/-- All items are copied, where the destination is a part of the item `z`. -/
theorem copy_around {α : Type} {n : Nat} (dst : Nat) (ptr : α → Nat) (mk : α → Nat → α) (wrap : List α → Cell F)
    (step : Heap F → α → Res (Heap F)) (push : Heap F → α → Nat → Res (Heap F))
    (hstep : ∀ h a, step h a = copyUnion n (alloc h).1 (alloc h).2 (ptr a) >>= fun h2 => push h2 a (alloc h).2)
    (hpush : ∀ h l a y, h.cells dst = some (wrap l) →
      push h a y = .ok { h with cells := upd h.cells dst (some (wrap (l ++ [mk a y]))) })
    (hmk : ∀ a y, ptr (mk a y) = y)
    {h : Heap F} {a b : List α} {z : α} {ja jb jz fa fb} (ra : Reps h (a.map ptr) ja fa) (rb : Reps h (b.map ptr) jb fb)
    (w : Fresh h) (hd : h.cells dst = some (wrap [])) (da : dst ∉ fa) (db : dst ∉ fb) (la : fa.length ≤ n)
    (lb : fb.length ≤ n)
    (Z : ∀ h' ys new, ys.length = a.length → h'.cells dst = some (wrap (List.zipWith mk a ys)) →
      Reps h' ((List.zipWith mk a ys).map ptr) ja new → New h h' dst new →
      ∃ fz, Rep h' (ptr z) jz fz ∧ fz.length ≤ n) :
    ∃ h' ys new, (a ++ z :: b).foldlM step h = .ok h' ∧ ys.length = (a ++ z :: b).length ∧
      h'.cells dst = some (wrap (List.zipWith mk (a ++ z :: b) ys)) ∧
      Reps h' ((List.zipWith mk (a ++ z :: b) ys).map ptr) (ja ++ jz :: jb) new ∧ New h h' dst new := by
  obtain ⟨h1, out, n1, e1, d1, r1, nw1, _, ys, rfl, ly⟩ := copy_fold (n := n) dst ptr mk wrap step push hstep hpush hmk
    (copyUnion_height n) a h ja fa [] ra w hd da (Nat.le_trans ra.height la)
  rw [List.nil_append] at d1
  obtain ⟨fz, rz, lz⟩ := Z h1 ys n1 ly d1 r1 nw1
  obtain ⟨h2, n2, e2, d2, r2, nw2⟩ := copy_one dst ptr mk wrap step push hstep hpush rz nw1.fresh d1 lz
  have lt1 := r1.lt nw1.fresh
  have nw12 := nw1.trans nw2 lt1
  have dlt : dst < h.next := w.lt (by simp [hd])
  have rb2 : Reps h2 (b.map ptr) jb fb := rb.frame fun y hy => by
    have yl := rb.lt w y hy
    exact nw12.same y (fun c => db (c ▸ hy)) (fun c => by have := nw12.ge y c; omega)
  obtain ⟨h3, out, n3, e3, d3, r3, nw3, _, ys', rfl, ly'⟩ := copy_fold (n := n) dst ptr mk wrap step push hstep hpush hmk
    (copyUnion_height n) b h2 jb fb _ rb2 nw2.fresh d2 db (Nat.le_trans rb2.height lb)
  have n1d : ∀ y ∈ n1, y ≠ dst := fun y hy c => by have := nw1.ge y hy; omega
  have n2d : ∀ y ∈ h1.next :: n2, y ≠ dst := fun y hy c => by have := nw2.ge y hy; have := nw1.next; omega
  have lt2 := r2.lt nw2.fresh
  have lt12 : ∀ y ∈ n1 ++ h1.next :: n2, y < h2.next := by
    intro y hy
    rcases List.mem_append.mp hy with c | c
    · have := lt1 y c; have := nw2.next; omega
    · exact lt2 y c
  refine ⟨h3, ys ++ h1.next :: ys', n1 ++ (h1.next :: n2) ++ n3, ?_, by simp [ly, ly'], ?_, ?_, nw12.trans nw3 lt12⟩
  · rw [List.foldlM_append, e1]
    change (z :: b).foldlM step h1 = _
    rw [List.foldlM_cons, e2]
    exact e3
  · rw [d3, List.zipWith_append ly.symm]
    simp
  · rw [List.zipWith_append ly.symm, List.map_append]
    rw [List.append_assoc]
    refine Reps.append (r1.frame fun y hy => ?_) ?_
    · have := lt1 y hy
      have := nw2.next
      rw [nw3.same y (n1d y hy) (fun c => by have := nw3.ge y c; omega),
        nw2.same y (n1d y hy) (fun c => by have := nw2.ge y c; omega)]
    · rw [List.zipWith_cons_cons, List.map_cons, hmk]
      refine .cons (r2.frame fun y hy => ?_) r3
      have := lt2 y hy
      exact nw3.same y (n2d y hy) (fun c => by have := nw3.ge y c; omega)

/-- The whole is copied into a part of it: `W` makes a value of the items, `V` of their values. -/
theorem copy_into_part {α : Type} (ptr : α → Nat) (mk : α → Nat → α) (wrap : List α → Cell F)
    (W : List α → List (Json F) → Json F)
    (step : Nat → Nat → Heap F → α → Res (Heap F)) (push : Nat → Heap F → α → Nat → Res (Heap F))
    (hstep : ∀ n dst h a, step n dst h a =
      copyUnion n (alloc h).1 (alloc h).2 (ptr a) >>= fun h2 => push dst h2 a (alloc h).2)
    (hpush : ∀ dst h l a y, h.cells dst = some (wrap l) →
      push dst h a y = .ok { h with cells := upd h.cells dst (some (wrap (l ++ [mk a y]))) })
    (hmk : ∀ a y, ptr (mk a y) = y)
    (hcopy : ∀ n (h : Heap F) dst src as, h.cells src = some (wrap as) →
      copyUnion (n + 1) h dst src = write h dst (wrap []) >>= fun h => as.foldlM (step n dst) h)
    (hW : ∀ (h : Heap F) y as ys js new, ys.length = as.length → h.cells y = some (wrap (List.zipWith mk as ys)) →
      Reps h ((List.zipWith mk as ys).map ptr) js new → Rep h y (W as js) (y :: new))
    {h : Heap F} {a b : List α} {z : α} {x : Nat} {ja jb jz fa fb fz} {r : List Step} {w0 : Json F} (w : Fresh h)
    (hx : h.cells x = some (wrap (a ++ z :: b)))
    (ra : Reps h (a.map ptr) ja fa) (rz : Rep h (ptr z) jz fz) (rb : Reps h (b.map ptr) jb fb)
    (nd : (x :: (fa ++ (fz ++ fb))).Nodup) (e : part r jz = some w0) :
    ∃ y h' fz', find h (ptr z) r = .ok y ∧ assignCopy h y x = .ok h' ∧ h'.cells x = some (wrap (a ++ z :: b)) ∧
      Reps h' (a.map ptr) ja fa ∧
      Rep h' (ptr z) (put (W (a ++ z :: b) (ja ++ put (W a ja) r jz :: jb)) r jz) fz' ∧ Reps h' (b.map ptr) jb fb ∧
      Local h h' (x :: (fa ++ (fz ++ fb))) (x :: (fa ++ (fz' ++ fb))) := by
  obtain ⟨y, g, ctx, hy, ry, pm, K⟩ := rz.focus e
  have pmall : (x :: (fa ++ (fz ++ fb))).Perm (x :: (fa ++ ctx ++ fb) ++ g) := by
    rw [List.perm_iff_count]
    intro u
    have := pm.count_eq u
    simp only [List.cons_append, List.count_append, List.count_cons] at this ⊢
    omega
  have nd' := pmall.nodup_iff.mp nd
  rw [List.nodup_append] at nd'
  obtain ⟨ndc, ndg, dis⟩ := nd'
  have yg : y ∈ g := by obtain ⟨t, rfl⟩ := ry.head; simp
  have ne : y ≠ x := fun c => dis x (by simp) y yg c.symm
  have ltx : x < h.next := w.lt (by simp [hx])
  obtain ⟨h1, c, e1, l1, hc, hc1, hn⟩ := destroyUnion_local w ry ndg
  have l2 := Local.write l1.fresh (x := y) (by simp [hc1]) (wrap []) h1.strings
  generalize h2def : ({ h1 with cells := upd h1.cells y (some (wrap [])) } : Heap F) = h2 at l2
  have h2y : h2.cells y = some (wrap []) := by subst h2def; simp [upd]
  have h2n : h2.next = h1.next := by subst h2def; rfl
  have l12 := l1.trans l2
  -- what is not destroyed
  have ra2 : Reps h2 (a.map ptr) ja fa := ra.frame fun u hu => l12.same u (fun d => dis u (by simp [hu]) u d rfl) (ra.lt w u hu)
  have rb2 : Reps h2 (b.map ptr) jb fb := rb.frame fun u hu => l12.same u (fun d => dis u (by simp [hu]) u d rfl) (rb.lt w u hu)
  have ctxlt : ∀ u ∈ ctx, u < h.next := fun u hu => rz.lt w u (pm.mem_iff.mpr (by simp [hu]))
  have lenall := w.length nd (fun u hu => by
    rcases List.mem_cons.mp hu with c | c
    · rw [c]; simp [hx]
    · rcases List.mem_append.mp c with c | c
      · exact ra.live u c
      · rcases List.mem_append.mp c with c | c
        · exact rz.live u c
        · exact rb.live u c)
  simp only [List.length_cons, List.length_append] at lenall
  have lenz := pm.length_eq
  simp only [List.length_append] at lenz
  have leng : 1 ≤ g.length := by obtain ⟨t, rfl⟩ := ry.head; simp
  have fal : fa.length = nodesList ja := ra.facts.2
  have ctxy : ∀ u ∈ fa ++ ctx ++ fb, u ≠ y := fun u hu c => dis u (List.mem_cons_of_mem _ hu) y yg c
  obtain ⟨h5, ys, new, e5, ly, d5, r5, nw5⟩ := copy_around (n := h1.next) y ptr mk wrap (step h1.next y) (push y)
    (hstep h1.next y) (hpush y) hmk (jz := put (W a ja) r jz) ra2 rb2 l12.fresh h2y
    (z := z) (fun c => ctxy y (by simp [c]) rfl) (fun c => ctxy y (by simp [c]) rfl) (by omega) (by omega) (by
      intro h' ys new ly hd rn nw
      have ry' := hW h' y a ys ja new ly hd rn
      obtain ⟨fz', pm', rr⟩ := K h' _ _ (fun u hu => by
        have := ctxlt u hu
        have hge : u ∉ new := fun c => by have := nw.ge u c; have := l12.next; omega
        rw [nw.same u (ctxy u (by simp [hu])) hge, l12.same u (fun d => dis u (by simp [hu]) u d rfl) this]) ry'
      refine ⟨fz', rr, ?_⟩
      have := pm'.length_eq
      have nl : new.length = nodesList ja := rn.facts.2
      simp only [List.length_append, List.length_cons] at this
      omega)
  have ry5 := hW h5 y _ ys _ new ly d5 r5
  have old : ∀ u ∈ x :: (fa ++ ctx ++ fb), h5.cells u = h.cells u := by
    intro u hu
    have ul : u < h.next := by
      rcases List.mem_cons.mp hu with c | c
      · rw [c]; exact ltx
      · rcases List.mem_append.mp c with c | c
        · rcases List.mem_append.mp c with c | c
          · exact ra.lt w u c
          · exact ctxlt u c
        · exact rb.lt w u c
    have hge : u ∉ new := fun c => by have := nw5.ge u c; have := l12.next; omega
    rw [nw5.same u (fun c => dis u hu y yg c) hge, l12.same u (fun d => dis u hu u d rfl) ul]
  obtain ⟨fz', pm', rr⟩ := K h5 _ _ (fun u hu => old u (by simp [hu])) ry5
  have l5 : Local h h5 g (y :: new) := l12.trans (Local.new l12.fresh (by simp [h2y]) nw5)
  refine ⟨y, h5, fz', hy, ?_, by rw [old x (by simp), hx], ra.frame fun u hu => old u (by simp [hu]), rr,
    rb.frame fun u hu => old u (by simp [hu]), ?_⟩
  · rw [assignCopy, if_neg ne, e1]
    change copyUnion (h1.next + 1) h1 y x = _
    have hx1 : h1.cells x = some (wrap (a ++ z :: b)) := by
      rw [l1.same x (fun d => dis x (by simp) x d rfl) ltx, hx]
    rw [hcopy _ _ _ _ _ hx1, write_ok (by simp [hc1]), h2def]
    exact e5
  · refine (l5.framed (x :: (fa ++ ctx ++ fb)) ?_).perm pmall.symm ?_
    · intro u hu
      exact w.lt (by
        intro c
        rcases List.mem_cons.mp hu with d | d
        · rw [d, hx] at c; cases c
        · rcases List.mem_append.mp d with d | d
          · rcases List.mem_append.mp d with d | d
            · exact ra.live u d c
            · exact rz.live u (pm.mem_iff.mpr (by simp [d])) c
          · exact rb.live u d c)
    · rw [List.perm_iff_count]
      intro u
      have := pm'.count_eq u
      simp only [List.cons_append, List.count_append, List.count_cons] at this ⊢
      omega

theorem copyUnion_arr (n : Nat) (h : Heap F) (dst src : Nat) (ids : List Nat) (e : h.cells src = some (.arr ids)) :
    copyUnion (n + 1) h dst src = write h dst (.arr []) >>= fun h => ids.foldlM (copyItem (copyUnion n) dst) h := by
  rw [copyUnion, read, e]; rfl

theorem copyUnion_obj (n : Nat) (h : Heap F) (dst src : Nat) (ms : List (Str × Nat)) (e : h.cells src = some (.obj ms)) :
    copyUnion (n + 1) h dst src = write h dst (.obj []) >>= fun h => ms.foldlM (copyMember (copyUnion n) dst) h := by
  rw [copyUnion, read, e]; rfl

theorem split_at {α : Type} {l : List α} {k : Nat} {v : α} (e : l[k]? = some v) :
    l = l.take k ++ v :: l.drop (k + 1) := by
  obtain ⟨h, rfl⟩ := List.getElem?_eq_some_iff.mp e
  rw [List.getElem_cons_drop, List.take_append_drop]

theorem modify_split {α : Type} {a b : List α} {z : α} (f : α → α) :
    (a ++ z :: b).modify a.length f = a ++ f z :: b := by
  induction a with
  | nil => rfl
  | cons x a ih => simp [ih]

theorem pos_takeWhile (k : Str) (ms : List (Str × Json F)) :
    ms.takeWhile (fun m => decide (m.1 ≠ k)) = ms.take (pos k (ms.map Prod.fst)) := by
  induction ms with
  | nil => rfl
  | cons m ms ih =>
    by_cases e : m.1 = k
    · simp [pos, e]
    · simp only [List.map_cons, pos, if_neg e, List.take_succ_cons]
      rw [List.takeWhile_cons, if_pos (by simpa using e), ih]

/-- A value is copied into a part of it. -/
theorem whole_into_part {h : Heap F} {x j tl w0} {s : Step} {r : List Step} (w : Fresh h) (rr : Rep h x j (x :: tl))
    (nd : (x :: tl).Nodup) (e : part (s :: r) j = some w0) :
    ∃ y h' tl', find h x (s :: r) = .ok y ∧ assignCopy h y x = .ok h' ∧
      Rep h' x (put (absorbed (s :: r) j) (s :: r) j) (x :: tl') ∧ Local h h' (x :: tl) (x :: tl') := by
  rw [get_slot] at e
  cases hs : slot s j with
  | none => simp [hs] at e
  | some i =>
  simp only [hs, Option.bind_some] at e
  cases hk : (kids j)[i]? with
  | none => simp [hk] at e
  | some jz =>
  simp only [hk, Option.bind_some] at e
  cases rr with
  | null | bool | int | float | str => cases s <;> simp [slot] at hs
  | @arr _ ids js _ hc rs =>
    cases s with
    | key k => simp [slot] at hs
    | index k =>
    simp only [slot, Option.some.injEq] at hs
    subst hs
    simp only [kids] at hk
    have il := lt_of_get? hk
    have il' : k < ids.length := by rw [rs.length]; exact il
    have hz : ids[k]? = some ids[k] := List.getElem?_eq_getElem il'
    have sj := split_at hk
    have si := split_at hz
    generalize ids[k] = z at hz si
    have la : (js.take k).length = k := by simp; omega
    have la' : (ids.take k).length = k := by simp; omega
    generalize js.take k = ja at sj la
    generalize js.drop (k + 1) = jb at sj
    generalize ids.take k = ia at si la'
    generalize ids.drop (k + 1) = ib at si
    subst sj si
    obtain ⟨ja', jb', fa, fb, ej, rfl, ra, rb⟩ := rs.split
    have lj := ra.length
    obtain ⟨rfl, rfl⟩ := List.append_inj ej (by omega)
    cases rb with
    | @cons _ _ fz _ _ fb rz rb =>
    obtain ⟨y, h', fz', hy, ea, hx', ra', rz', rb', l⟩ := copy_into_part (F := F) (α := Nat) id (fun _ y => y) Cell.arr
      (fun _ js => .arr js) (fun n dst => copyItem (copyUnion n) dst) (fun dst h _ y => pushItem h dst y)
      (fun _ _ _ _ => rfl) (fun dst h l a y hc => pushItem_ok hc y) (fun _ _ => rfl)
      (fun n h dst src as e => copyUnion_arr n h dst src as e)
      (fun h y as ys js new ly hc rs => .arr hc (by simpa using rs))
      w hc (by simpa using ra) rz (by simpa using rb) nd e
    refine ⟨y, h', fa ++ (fz' ++ fb), ?_, ea, ?_, l⟩
    · rw [find, read, hc]
      change (match (ia ++ z :: ib)[k]? with | some y => find h y r | none => .error .outOfRange) = _
      rw [hz]; exact hy
    · rw [absorbed, put]
      subst la
      rw [modify_split, modify_split, List.take_left]
      refine .arr hx' (Reps.append (by simpa using ra') (.cons rz' (by simpa using rb')))
  | @obj _ ms jms _ hc ks rs =>
    cases s with
    | index k => simp [slot] at hs
    | key k =>
    simp only [slot, Option.some.injEq] at hs
    simp only [kids] at hk
    have kl : ms.length = jms.length := by have := congrArg List.length ks; simpa using this
    have il := lt_of_get? hk
    rw [List.length_map] at il
    have hz : ms[i]? = some ms[i] := List.getElem?_eq_getElem (by omega)
    have hj : jms[i]? = some jms[i] := List.getElem?_eq_getElem il
    have hl : lookup k ms = some ms[i].2 := by
      rw [lookup_pos, ks, hs, List.getElem?_map, hz]; rfl
    have ejz : jms[i].2 = jz := by rw [List.getElem?_map, hj] at hk; simpa using hk
    have tw := pos_takeWhile k jms
    have ck := fun f => changeKey_pos k f jms
    rw [hs] at tw ck
    have sj := split_at hj
    have si := split_at hz
    generalize ms[i] = z at hz si hl
    generalize jms[i] = mz at sj ejz
    have la : (jms.take i).length = i := by simp; omega
    have la' : (ms.take i).length = i := by simp; omega
    generalize jms.take i = ja at sj la tw
    generalize jms.drop (i + 1) = jb at sj
    generalize ms.take i = ia at si la'
    generalize ms.drop (i + 1) = ib at si
    subst sj si ejz
    simp only [List.map_append, List.map_cons] at rs ks ck
    obtain ⟨ja', jb', fa, fb, ej, rfl, ra, rb⟩ := rs.split
    have lj := ra.length
    rw [List.length_map] at lj
    obtain ⟨rfl, rfl⟩ := List.append_inj ej (by simp; omega)
    obtain ⟨k1, k2⟩ := List.append_inj ks (by simp; omega)
    cases rb with
    | @cons _ _ fz _ _ fb rz rb =>
    obtain ⟨y, h', fz', hy, ea, hx', ra', rz', rb', l⟩ := copy_into_part (F := F) (α := Str × Nat) Prod.snd
      (fun m y => (m.1, y)) Cell.obj
      (fun as js => .obj ((as.map Prod.fst).zip js)) (fun n dst => copyMember (copyUnion n) dst)
      (fun dst h m y => pushMember h dst m.1 y)
      (fun _ _ _ _ => rfl) (fun dst h l a y hc => pushMember_ok hc a.1 y) (fun _ _ => rfl)
      (fun n h dst src as e => copyUnion_obj n h dst src as e)
      (fun h y as ys js new ly hc rs => by
        have := rs.length
        simp only [List.length_map, List.length_zipWith] at this
        refine .obj hc ?_ ?_
        · rw [map_fst_zip as ys ly, List.map_fst_zip (by simp; omega)]
        · rw [List.map_snd_zip (by simp; omega)]; exact rs)
      w hc ra rz rb nd e
    refine ⟨y, h', fa ++ (fz' ++ fb), ?_, ea, ?_, l⟩
    · rw [find, read, hc]
      change (match lookup k (ia ++ z :: ib) with | some y => find h y r | none => .error .outOfRange) = _
      rw [hl]; exact hy
    · have zz : (ja.map Prod.fst).zip (ja.map Prod.snd) = ja := by simp [List.zip_map', Prod.eta]
      simp only [List.map_append, List.map_cons] at rz'
      rw [k1, zz] at rz'
      rw [absorbed, put, tw, ck, ck]
      have lm : i = (ja.map Prod.snd).length := by simp [la]
      rw [lm, modify_split, modify_split]
      have kk : ia.map Prod.fst ++ z.1 :: ib.map Prod.fst = ja.map Prod.fst ++ mz.1 :: jb.map Prod.fst := ks
      rw [k2] at rz'
      refine .obj hx' ?_ ?_
      · rw [List.map_fst_zip (by simp)]; simpa using kk
      · rw [List.map_snd_zip (by simp)]
        simp only [List.map_append, List.map_cons]
        exact Reps.append ra' (.cons rz' rb')

/-! ## `RemoveMember` -/

/-- The members with a key, and those without it. -/
theorem Reps.filter {h : Heap F} (key : Str) {ms : List (Str × Nat)} {jms : List (Str × Json F)} {tl}
    (ks : ms.map Prod.fst = jms.map Prod.fst) (rs : Reps h (ms.map Prod.snd) (jms.map Prod.snd) tl) :
    ∃ fk fr, tl.Perm (fk ++ fr) ∧
      Reps h ((ms.filter fun m => !decide (m.1 = key)).map Prod.snd)
        ((jms.filter fun m => !decide (m.1 = key)).map Prod.snd) fk ∧
      (ms.filter fun m => !decide (m.1 = key)).map Prod.fst = (jms.filter fun m => !decide (m.1 = key)).map Prod.fst ∧
      fr.length = nodesMembers (jms.filter fun m => decide (m.1 = key)) := by
  induction ms generalizing jms tl with
  | nil =>
    cases jms with
    | nil => cases rs; exact ⟨[], [], List.Perm.refl _, .nil, rfl, by simp [nodesMembers]⟩
    | cons => simp at ks
  | cons m ms ih =>
    cases jms with
    | nil => simp at ks
    | cons jm jms =>
      obtain ⟨k, y⟩ := m
      obtain ⟨k', j⟩ := jm
      simp only [List.map_cons, List.cons.injEq] at ks
      obtain ⟨rfl, ks⟩ := ks
      simp only [List.map_cons] at rs
      cases rs with
      | @cons _ _ f _ _ fs r rs =>
      obtain ⟨fk, fr, pm, rk, kk, len⟩ := ih ks rs
      by_cases c : k = key
      · refine ⟨fk, f ++ fr, ?_, by simpa [c] using rk, by simpa [c] using kk, by simp [c, nodesMembers, len, r.facts.2]⟩
        rw [List.perm_iff_count]
        intro u
        have := pm.count_eq u
        simp only [List.count_append] at this ⊢
        omega
      · refine ⟨f ++ fk, fr, ?_, by simpa [c] using Reps.cons r rk, by simpa [c] using kk, by simpa [c] using len⟩
        rw [List.append_assoc]; exact pm.append_left _

theorem removeMember_ok {h : Heap F} {x jms f} (w : Fresh h) (r : Rep h x (.obj jms) f) (nd : f.Nodup) (key : Str) :
    ∃ h' f' lost, removeMember h x key = .ok h' ∧
      Rep h' x (.obj (jms.filter fun m => !decide (m.1 = key))) f' ∧ Local h h' f (f' ++ lost) ∧
      (∀ y ∈ lost, h'.cells y ≠ none) ∧ lost.length = nodesMembers (jms.filter fun m => decide (m.1 = key)) := by
  cases r with
  | @obj _ ms _ tl hc ks rs =>
    obtain ⟨fk, fr, pm, rk, kk, len⟩ := rs.filter key ks
    have l := Local.write w (x := x) (by simp [hc]) (.obj (ms.filter fun m => !decide (m.1 = key))) h.strings
    have lt := rs.lt w
    have nx := (List.nodup_cons.mp nd).1
    have same : ∀ y ∈ tl, upd h.cells x (some (.obj (ms.filter fun m => !decide (m.1 = key)))) y = h.cells y := by
      intro y hy
      simp only [upd]
      rw [if_neg (fun (c : y = x) => nx (c ▸ hy))]
    refine ⟨{ h with cells := upd h.cells x (some (.obj (ms.filter fun m => !decide (m.1 = key)))) }, x :: fk, fr, ?_,
      .obj (by simp [upd]) kk (rk.frame fun y hy => same y (pm.mem_iff.mpr (by simp [hy]))), ?_, ?_, len⟩
    · rw [removeMember, read, hc]
      exact write_ok (by simp [hc]) _
    · refine (l.framed tl lt).perm ?_ ?_
      · rw [List.perm_iff_count]
        intro u
        simp only [List.count_append, List.count_cons, List.count_nil]
        omega
      · rw [List.perm_iff_count]
        intro u
        have := pm.count_eq u
        simp only [List.count_append, List.count_cons, List.count_nil] at this ⊢
        omega
    · intro y hy
      have yt := pm.mem_iff.mpr (by simp [hy] : y ∈ fk ++ fr)
      change upd _ _ _ y ≠ none
      rw [same y yt]
      exact rs.live y yt

theorem removeMember_other {h : Heap F} {x j f} (r : Rep h x j f) (key : Str) (n : ∀ ms, j ≠ .obj ms) :
    removeMember h x key = .ok h := by
  cases r with
  | obj => exact absurd rfl (n _)
  | null e | bool e | int e | float e | str e => rw [removeMember, read, e]; rfl
  | arr e => rw [removeMember, read, e]; rfl

/-! ## Every statement -/

theorem find_part {h : Heap F} {p r : List Step} {x : Nat} (e : find h 0 p = .ok x) : find h 0 (p ++ r) = find h x r := by
  rw [find_append, e]; rfl

theorem drop_prefix {p q : List Step} (c : q <+: p) : ∃ r, p = q ++ r ∧ p.drop q.length = r := by
  obtain ⟨r, rfl⟩ := c
  exact ⟨r, rfl, by simp⟩

/-- A statement comes to `o`, when the nodes `E` have been lost before. -/
def Comes (E : List Nat) (o : Outcome F) (res : Res (Heap F)) : Prop :=
  match o with
  | .undefined => res = .error .ub
  | .done vars' lost => ∃ h' E', res = .ok h' ∧ Inv h' vars' (E' ++ E) ∧ E'.length = lost

/-- What a statement does. -/
theorem Inv.act {h : Heap F} {vars : List (Json F)} {E : List Nat} {a : Act F} {o : Outcome F} (i : Inv h vars E)
    (m : effect vars a = some o) : Comes E o (a.run h) := by
  have plain : ∀ s : Stmt F, (meaning vars s).map (fun vars => Outcome.done vars 0) = some o →
      Comes E o (s.run h) := by
    intro s ms
    rw [Option.map_eq_some_iff] at ms
    obtain ⟨vars', ms, rfl⟩ := ms
    obtain ⟨h', e, i'⟩ := i.run ms
    exact ⟨h', [], e, i', rfl⟩
  cases a with
  | remove k key =>
    simp only [effect, Option.map_eq_some_iff] at m
    obtain ⟨v, ev, m⟩ := m
    have el : look vars [.index k] = some v := by simp [look, ev, part]
    obtain ⟨x, f, hx, rx, ndx, w, K⟩ := i.place el
    by_cases c : ∃ ms, v = .obj ms
    · obtain ⟨ms, rfl⟩ := c
      simp only at m
      subst m
      obtain ⟨h', f', lost, e, r', l, ll, len⟩ := removeMember_ok w rx ndx key
      refine ⟨h', lost, ?_, ?_, len⟩
      · rw [Act.run, hx]; exact e
      · have := K h' _ f' lost r' l ll
        simp only [store] at this
        rw [modify_set _ ev] at this
        exact this
    · have n : ∀ ms, v ≠ .obj ms := fun ms d => c ⟨ms, d⟩
      have : o = .done vars 0 := by
        rw [← m]
        cases v with
        | obj ms => exact absurd rfl (n ms)
        | _ => rfl
      subst this
      refine ⟨h, [], ?_, i, rfl⟩
      rw [Act.run, hx]; exact removeMember_other rx key n
  | stmt s =>
    cases s with
    | declare v => exact plain (.declare v) m
    | declareCopy q => exact plain (.declareCopy q) m
    | declareMove q => exact plain (.declareMove q) m
    | leave => exact plain (.leave) m
    | set p v => exact plain (.set p v) m
    | touch p k => exact plain (.touch p k) m
    | append p q => exact plain (.append p q) m
    | assign p q =>
      simp only [effect, Option.bind_eq_some_iff, Option.map_eq_some_iff] at m
      obtain ⟨w, ep, v, eq, m⟩ := m
      by_cases c1 : p = q
      · rw [if_pos c1] at m
        refine plain (.assign p q) ?_
        rw [meaning, ep, eq]
        simpa [c1] using m
      rw [if_neg c1] at m
      by_cases c2 : p <+: q
      · rw [if_pos c2] at m
        subst m
        obtain ⟨r, rfl, _⟩ := drop_prefix c2
        obtain ⟨x, f, hx, rx, ndx, wf, _⟩ := i.place ep
        rw [look_part ep] at eq
        cases r with
        | nil => simp at c1
        | cons s r =>
          obtain ⟨tl, rfl⟩ := rx.head
          obtain ⟨y, g, ctx, hy, ry, pm⟩ := rx.inside eq
          have yt : y ∈ tl := by
            obtain ⟨t, rfl⟩ := ry.head
            exact pm.mem_iff.mpr (by simp)
          change (Stmt.assign p (p ++ s :: r)).run h = _
          rw [Stmt.run, hx]
          change (find h 0 (p ++ s :: r) >>= fun src => assignCopy h x src) = _
          rw [find_part hx, hy]
          exact (part_into_whole wf rx ndx yt).1
      rw [if_neg c2] at m
      by_cases c3 : q <+: p
      · rw [if_pos c3] at m
        subst m
        obtain ⟨r, rfl, er⟩ := drop_prefix c3
        rw [er]
        obtain ⟨x, f, hx, rx, ndx, wf, K⟩ := i.place eq
        rw [look_part eq] at ep
        cases r with
        | nil => simp at c1
        | cons s r =>
          obtain ⟨tl, rfl⟩ := rx.head
          obtain ⟨y, h', tl', hy, e, r', l⟩ := whole_into_part wf rx ndx ep
          have i' := K h' _ (x :: tl') [] r' (by simpa using l) (by simp)
          refine ⟨h', [], ?_, ?_, rfl⟩
          · change (Stmt.assign (q ++ s :: r) q).run h = _
            rw [Stmt.run, find_part hx, hy]
            change (find h 0 q >>= fun src => assignCopy h y src) = _
            rw [hx]; exact e
          · rw [store_append _ eq]; exact i'
      rw [if_neg c3] at m
      refine plain (.assign p q) ?_
      rw [meaning, ep, eq]
      simpa [c1, show Apart p q from ⟨c2, c3⟩] using m
    | moveAssign p q =>
      simp only [effect, Option.bind_eq_some_iff, Option.map_eq_some_iff] at m
      obtain ⟨w, ep, v, eq, m⟩ := m
      by_cases c1 : p = q
      · rw [if_pos c1] at m
        refine plain (.moveAssign p q) ?_
        rw [meaning, ep, eq]
        simpa [c1] using m
      rw [if_neg c1] at m
      by_cases c2 : p <+: q
      · rw [if_pos c2] at m
        subst m
        obtain ⟨r, rfl, _⟩ := drop_prefix c2
        obtain ⟨x, f, hx, rx, ndx, wf, _⟩ := i.place ep
        rw [look_part ep] at eq
        cases r with
        | nil => simp at c1
        | cons s r =>
          obtain ⟨tl, rfl⟩ := rx.head
          obtain ⟨y, g, ctx, hy, ry, pm⟩ := rx.inside eq
          have yt : y ∈ tl := by
            obtain ⟨t, rfl⟩ := ry.head
            exact pm.mem_iff.mpr (by simp)
          change (Stmt.moveAssign p (p ++ s :: r)).run h = _
          rw [Stmt.run, hx]
          change (find h 0 (p ++ s :: r) >>= fun src => assignMove h x src) = _
          rw [find_part hx, hy]
          exact (part_into_whole wf rx ndx yt).2
      rw [if_neg c2] at m
      by_cases c3 : q <+: p
      · rw [if_pos c3] at m
        subst m
        obtain ⟨r, rfl, er⟩ := drop_prefix c3
        obtain ⟨x, f, hx, rx, ndx, wf, K⟩ := i.place eq
        rw [look_part eq] at ep
        cases r with
        | nil => simp at c1
        | cons s r =>
          obtain ⟨tl, rfl⟩ := rx.head
          obtain ⟨y, g, ctx, hy, ry, pm⟩ := rx.inside ep
          obtain ⟨h', e, r', l, ll⟩ := move_into_part wf rx ndx ry pm
          refine ⟨h', ctx ++ [y], ?_, K h' _ [x] (ctx ++ [y]) r' l ll, ?_⟩
          · change (Stmt.moveAssign (q ++ s :: r) q).run h = _
            rw [Stmt.run, find_part hx, hy]
            change (find h 0 q >>= fun src => assignMove h y src) = _
            rw [hx]; exact e
          · have h1 := rx.facts.2
            have h2 := ry.facts.2
            have h3 := pm.length_eq
            simp only [List.length_cons, List.length_append, List.length_nil] at h1 h3 ⊢
            omega
      rw [if_neg c3] at m
      refine plain (.moveAssign p q) ?_
      rw [meaning, ep, eq]
      simpa [c1, show Apart p q from ⟨c2, c3⟩] using m

end Caitlyn.JsonNodes
