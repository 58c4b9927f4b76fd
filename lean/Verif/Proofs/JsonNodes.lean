import Verif.Spec.JsonStore
import Verif.Spec.PrintMem

/-!
# Ownership of the nodes of `JsonData`

`Rep h x j fp`: the node `x` and the nodes below it, which are `fp`, hold the value `j`.
-/

namespace Caitlyn.JsonNodes
open Spec
open Spec.Print (height heights heightsOf)
variable {F : Type}

mutual
inductive Rep (h : Heap F) : Nat → Json F → List Nat → Prop where
  | null {x} : h.cells x = some .null → Rep h x .null [x]
  | bool {x b} : h.cells x = some (.bool b) → Rep h x (.bool b) [x]
  | int {x i} : h.cells x = some (.int i) → Rep h x (.int i) [x]
  | float {x f} : h.cells x = some (.float f) → Rep h x (.float f) [x]
  | str {x s} : h.cells x = some (.str s) → Rep h x (.str s) [x]
  | arr {x ids js fp} : h.cells x = some (.arr ids) → Reps h ids js fp → Rep h x (.arr js) (x :: fp)
  | obj {x ms jms fp} : h.cells x = some (.obj ms) → ms.map Prod.fst = jms.map Prod.fst →
      Reps h (ms.map Prod.snd) (jms.map Prod.snd) fp → Rep h x (.obj jms) (x :: fp)

inductive Reps (h : Heap F) : List Nat → List (Json F) → List Nat → Prop where
  | nil : Reps h [] [] []
  | cons {x j fp ids js fps} : Rep h x j fp → Reps h ids js fps → Reps h (x :: ids) (j :: js) (fp ++ fps)
end

/-- Nothing is alive beyond `next`. -/
def Fresh (h : Heap F) : Prop := ∀ x, h.next ≤ x → h.cells x = none

theorem frames (h h' : Heap F) :
    (∀ {x j fp}, Rep h x j fp → (∀ y ∈ fp, h'.cells y = h.cells y) → Rep h' x j fp) ∧
    (∀ {ids js fp}, Reps h ids js fp → (∀ y ∈ fp, h'.cells y = h.cells y) → Reps h' ids js fp) := by
  constructor
  · intro x j fp r
    refine Rep.rec (motive_1 := fun x j fp _ => (∀ y ∈ fp, h'.cells y = h.cells y) → Rep h' x j fp)
      (motive_2 := fun ids js fp _ => (∀ y ∈ fp, h'.cells y = h.cells y) → Reps h' ids js fp)
      ?_ ?_ ?_ ?_ ?_ ?_ ?_ ?_ ?_ r
    · exact fun c e => .null (by rw [e _ (by simp)]; exact c)
    · exact fun c e => .bool (by rw [e _ (by simp)]; exact c)
    · exact fun c e => .int (by rw [e _ (by simp)]; exact c)
    · exact fun c e => .float (by rw [e _ (by simp)]; exact c)
    · exact fun c e => .str (by rw [e _ (by simp)]; exact c)
    · exact fun c _ ih e => .arr (by rw [e _ (by simp)]; exact c) (ih fun y hy => e y (by simp [hy]))
    · exact fun c k _ ih e => .obj (by rw [e _ (by simp)]; exact c) k (ih fun y hy => e y (by simp [hy]))
    · exact fun _ => .nil
    · exact fun _ _ i1 i2 e => .cons (i1 fun y hy => e y (by simp [hy])) (i2 fun y hy => e y (by simp [hy]))
  · intro ids js fp r
    refine Reps.rec (motive_1 := fun x j fp _ => (∀ y ∈ fp, h'.cells y = h.cells y) → Rep h' x j fp)
      (motive_2 := fun ids js fp _ => (∀ y ∈ fp, h'.cells y = h.cells y) → Reps h' ids js fp)
      ?_ ?_ ?_ ?_ ?_ ?_ ?_ ?_ ?_ r
    · exact fun c e => .null (by rw [e _ (by simp)]; exact c)
    · exact fun c e => .bool (by rw [e _ (by simp)]; exact c)
    · exact fun c e => .int (by rw [e _ (by simp)]; exact c)
    · exact fun c e => .float (by rw [e _ (by simp)]; exact c)
    · exact fun c e => .str (by rw [e _ (by simp)]; exact c)
    · exact fun c _ ih e => .arr (by rw [e _ (by simp)]; exact c) (ih fun y hy => e y (by simp [hy]))
    · exact fun c k _ ih e => .obj (by rw [e _ (by simp)]; exact c) k (ih fun y hy => e y (by simp [hy]))
    · exact fun _ => .nil
    · exact fun _ _ i1 i2 e => .cons (i1 fun y hy => e y (by simp [hy])) (i2 fun y hy => e y (by simp [hy]))

theorem Rep.frame {h h' : Heap F} {x j fp} (r : Rep h x j fp) (e : ∀ y ∈ fp, h'.cells y = h.cells y) :
    Rep h' x j fp := (frames h h').1 r e

theorem Reps.frame {h h' : Heap F} {ids js fp} (r : Reps h ids js fp) (e : ∀ y ∈ fp, h'.cells y = h.cells y) :
    Reps h' ids js fp := (frames h h').2 r e

theorem Rep.head {h : Heap F} {x j fp} (r : Rep h x j fp) : ∃ tl, fp = x :: tl := by
  cases r <;> exact ⟨_, rfl⟩

theorem Rep.live {h : Heap F} {x j fp} (r : Rep h x j fp) : ∀ y ∈ fp, h.cells y ≠ none := by
  refine Rep.rec (motive_1 := fun x j fp _ => ∀ y ∈ fp, h.cells y ≠ none)
    (motive_2 := fun ids js fp _ => ∀ y ∈ fp, h.cells y ≠ none) ?_ ?_ ?_ ?_ ?_ ?_ ?_ ?_ ?_ r
  · intro x c; simp [c]
  · intro x b c; simp [c]
  · intro x b c; simp [c]
  · intro x b c; simp [c]
  · intro x b c; simp [c]
  · intro x ids js fp c _ ih y hy
    rcases List.mem_cons.mp hy with rfl | hy
    · simp [c]
    · exact ih y hy
  · intro x ids js fp c _ _ ih y hy
    rcases List.mem_cons.mp hy with rfl | hy
    · simp [c]
    · exact ih y hy
  · simp
  · intro _ _ _ _ _ _ _ _ i1 i2 y hy
    rcases List.mem_append.mp hy with hy | hy
    · exact i1 y hy
    · exact i2 y hy

theorem Reps.live {h : Heap F} {ids js fp} (r : Reps h ids js fp) : ∀ y ∈ fp, h.cells y ≠ none := by
  induction ids generalizing js fp with
  | nil => cases r; simp
  | cons x ids ih =>
    cases r with
    | cons r rs =>
      intro y hy
      rcases List.mem_append.mp hy with hy | hy
      · exact r.live y hy
      · exact ih rs y hy

theorem Fresh.lt {h : Heap F} (w : Fresh h) {x} (l : h.cells x ≠ none) : x < h.next := by
  apply Nat.lt_of_not_le
  intro c
  exact l (w x c)

theorem Fresh.length {h : Heap F} (w : Fresh h) {fp : List Nat} (n : fp.Nodup) (l : ∀ y ∈ fp, h.cells y ≠ none) :
    fp.length ≤ h.next := by
  have := List.Nodup.length_le_of_subset (l₂ := List.range h.next) n
    (fun y hy => List.mem_range.mpr (w.lt (l y hy)))
  simpa using this

theorem Reps.append {h : Heap F} {a ja fa b jb fb} (r : Reps h a ja fa) (s : Reps h b jb fb) :
    Reps h (a ++ b) (ja ++ jb) (fa ++ fb) := by
  induction a generalizing ja fa with
  | nil => cases r; simpa using s
  | cons x a ih =>
    cases r with
    | cons r rs =>
      rw [List.append_assoc]
      exact .cons r (ih rs)

theorem Reps.split {h : Heap F} {a b js fp} (r : Reps h (a ++ b) js fp) :
    ∃ ja jb fa fb, js = ja ++ jb ∧ fp = fa ++ fb ∧ Reps h a ja fa ∧ Reps h b jb fb := by
  induction a generalizing js fp with
  | nil => exact ⟨[], js, [], fp, rfl, rfl, .nil, r⟩
  | cons x a ih =>
    cases r with
    | cons r rs =>
      obtain ⟨ja, jb, fa, fb, rfl, rfl, ra, rb⟩ := ih rs
      exact ⟨_ :: ja, jb, _ ++ fa, fb, rfl, by simp, .cons r ra, rb⟩

theorem Reps.one {h : Heap F} {x j fp} (r : Rep h x j fp) : Reps h [x] [j] fp := by
  have := Reps.cons r .nil
  simpa using this

theorem Reps.length {h : Heap F} {ids js fp} (r : Reps h ids js fp) : ids.length = js.length := by
  induction ids generalizing js fp with
  | nil => cases r; rfl
  | cons x a ih => cases r with | cons r rs => simp [ih rs]

theorem heights_map (ms : List (Str × Json F)) : heights (ms.map Prod.snd) = heightsOf ms := by
  induction ms with
  | nil => simp [heights, heightsOf]
  | cons m ms ih => obtain ⟨k, j⟩ := m; simp [heights, heightsOf, ih]

/-- A value is at most as high as it has nodes. -/
theorem Rep.height {h : Heap F} {x j fp} (r : Rep h x j fp) : height j ≤ fp.length := by
  refine Rep.rec (motive_1 := fun x j fp _ => Print.height j ≤ fp.length)
    (motive_2 := fun ids js fp _ => heights js ≤ fp.length) ?_ ?_ ?_ ?_ ?_ ?_ ?_ ?_ ?_ r
  · intros; simp [Print.height]
  · intros; simp [Print.height]
  · intros; simp [Print.height]
  · intros; simp [Print.height]
  · intros; simp [Print.height]
  · intro x ids js fp _ _ ih
    simp only [Print.height, List.length_cons]; omega
  · intro x ms jms fp _ _ _ ih
    rw [heights_map] at ih
    simp only [Print.height, List.length_cons]; omega
  · simp [heights]
  · intro x j fp ids js fps _ _ i1 i2
    simp only [heights, List.length_append]; omega

theorem Reps.height {h : Heap F} {ids js fp} (r : Reps h ids js fp) : heights js ≤ fp.length := by
  induction ids generalizing js fp with
  | nil => cases r; simp [heights]
  | cons x ids ih =>
    cases r with
    | cons r rs =>
      have := ih rs
      have := r.height
      simp only [heights, List.length_append]; omega

theorem Rep.height_pos {h : Heap F} {x j fp} (r : Rep h x j fp) : 0 < Print.height j := by
  cases r <;> simp [Print.height] <;> omega

/-! ## Release -/

/-- The nodes `fp` are gone and nothing else has changed. -/
def Gone (h h' : Heap F) (fp : List Nat) : Prop :=
  (∀ x, h'.cells x = if x ∈ fp then none else h.cells x) ∧ h'.next = h.next ∧ h'.strings = h.strings

theorem Gone.frame {h h' : Heap F} {fp fq ids js} (g : Gone h h' fp) (r : Reps h ids js fq)
    (d : ∀ y ∈ fq, y ∉ fp) : Reps h' ids js fq :=
  r.frame fun y hy => by rw [g.1 y, if_neg (d y hy)]

theorem foldlM_delete {n : Nat}
    (del : ∀ (h : Heap F) x j fp, Rep h x j fp → fp.Nodup → Print.height j ≤ n →
      ∃ h', deleteNode n h x = .ok h' ∧ Gone h h' fp) (ids : List Nat) :
    ∀ (h : Heap F) js fp, Reps h ids js fp → fp.Nodup → heights js ≤ n →
      ∃ h', ids.foldlM (deleteNode n) h = .ok h' ∧ Gone h h' fp := by
  induction ids with
  | nil =>
    intro h js fp r _ _
    cases r
    exact ⟨h, rfl, by simp [Gone]⟩
  | cons x ids ih =>
    intro h js fp r nd len
    cases r with
    | @cons _ j f1 _ js f2 r rs =>
      rw [List.nodup_append] at nd
      simp only [heights] at len
      obtain ⟨h1, e1, g1⟩ := del h x j f1 r nd.1 (by omega)
      have rs' : Reps h1 ids js f2 := g1.frame rs fun y hy c => nd.2.2 y c y hy rfl
      obtain ⟨h2, e2, g2⟩ := ih h1 js f2 rs' nd.2.1 (by omega)
      refine ⟨h2, ?_, ?_, ?_, ?_⟩
      · rw [List.foldlM_cons, e1]; exact e2
      · intro y
        rw [g2.1 y, g1.1 y]
        by_cases h1 : y ∈ f1 <;> by_cases h2 : y ∈ f2 <;> simp [h1, h2]
      · rw [g2.2.1, g1.2.1]
      · rw [g2.2.2, g1.2.2]

theorem Rep.children {h : Heap F} {x j fp} (r : Rep h x j fp) :
    ∃ c js tl, h.cells x = some c ∧ fp = x :: tl ∧ Reps h c.children js tl ∧ Print.height j = 1 + heights js := by
  cases r with
  | null c => exact ⟨_, [], [], c, rfl, .nil, rfl⟩
  | bool c => exact ⟨_, [], [], c, rfl, .nil, rfl⟩
  | int c => exact ⟨_, [], [], c, rfl, .nil, rfl⟩
  | float c => exact ⟨_, [], [], c, rfl, .nil, rfl⟩
  | str c => exact ⟨_, [], [], c, rfl, .nil, rfl⟩
  | arr c rs => exact ⟨_, _, _, c, rfl, rs, by simp only [Print.height]⟩
  | obj c k rs => exact ⟨_, _, _, c, rfl, rs, by simp only [Print.height, heights_map]⟩

theorem deleteNode_height (n : Nat) :
    ∀ (h : Heap F) x j fp, Rep h x j fp → fp.Nodup → Print.height j ≤ n →
      ∃ h', deleteNode n h x = .ok h' ∧ Gone h h' fp := by
  induction n with
  | zero =>
    intro h x j fp r _ len
    have := r.height_pos
    omega
  | succ n ih =>
    intro h x j fp r nd len
    obtain ⟨c, js, tl, hc, rfl, rs, hj⟩ := r.children
    rw [List.nodup_cons] at nd
    obtain ⟨h1, e1, g1⟩ := foldlM_delete ih _ h js tl rs nd.2 (by omega)
    have hx : h1.cells x = some c := by rw [g1.1 x, if_neg nd.1, hc]
    refine ⟨{ h1 with cells := upd h1.cells x none }, ?_, ?_, g1.2.1, g1.2.2⟩
    · rw [deleteNode, read, hc]
      change ((c.children.foldlM (deleteNode n) h) >>= fun h => free h x) = _
      rw [e1]
      change free h1 x = _
      rw [free, hx]
    · intro y
      simp only [upd]
      by_cases e : y = x
      · simp [e]
      · rw [if_neg e, g1.1 y]
        simp [e]

theorem deleteNode_ok (n : Nat) (h : Heap F) (x : Nat) (j : Json F) (fp : List Nat) (r : Rep h x j fp) (nd : fp.Nodup)
    (len : fp.length ≤ n) : ∃ h', deleteNode n h x = .ok h' ∧ Gone h h' fp :=
  deleteNode_height n h x j fp r nd (Nat.le_trans r.height len)

theorem destroyUnion_ok {h : Heap F} {x j tl} (w : Fresh h) (r : Rep h x j (x :: tl)) (nd : (x :: tl).Nodup) :
    ∃ h', destroyUnion h x = .ok h' ∧ Gone h h' tl := by
  obtain ⟨c, js, tl', hc, e, rs, _⟩ := r.children
  cases e
  have len := w.length nd r.live
  rw [List.nodup_cons] at nd
  obtain ⟨h1, e1, g1⟩ := foldlM_delete (deleteNode_height (h.next + 1)) _ h js tl rs nd.2
    (by have := rs.height; simp at len; omega)
  exact ⟨h1, by rw [destroyUnion, read, hc]; exact e1, g1⟩

/-! ## Copies -/

theorem strsList_map (ms : List (Str × Json F)) : strsList (ms.map Prod.snd) = strsMembers ms := by
  induction ms with
  | nil => simp [strsList, strsMembers]
  | cons m ms ih => obtain ⟨k, j⟩ := m; simp [strsList, strsMembers, ih]


/-- New nodes `new`, made since `h`. -/
structure New (h h' : Heap F) (dst : Nat) (new : List Nat) : Prop where
  same : ∀ x, x ≠ dst → x ∉ new → h'.cells x = h.cells x
  ge : ∀ x ∈ new, h.next ≤ x
  nodup : new.Nodup
  fresh : Fresh h'
  next : h.next ≤ h'.next

theorem copy_fold {α : Type} {n : Nat} (dst : Nat) (ptr : α → Nat) (mk : α → Nat → α) (wrap : List α → Cell F)
    (step : Heap F → α → Res (Heap F)) (push : Heap F → α → Nat → Res (Heap F))
    (hstep : ∀ h a, step h a = copyUnion n (alloc h).1 (alloc h).2 (ptr a) >>= fun h2 => push h2 a (alloc h).2)
    (hpush : ∀ h l a y, h.cells dst = some (wrap l) →
      push h a y = .ok { h with cells := upd h.cells dst (some (wrap (l ++ [mk a y]))) })
    (hmk : ∀ a y, ptr (mk a y) = y)
    (cp : ∀ (h : Heap F) dst src j fp, Rep h src j fp → Fresh h → h.cells dst ≠ none → dst ∉ fp → Print.height j ≤ n →
      ∃ h' new, copyUnion n h dst src = .ok h' ∧ Rep h' dst j (dst :: new) ∧ New h h' dst new ∧
        h'.strings = h.strings + strs j)
    (as : List α) :
    ∀ (h : Heap F) js fp done, Reps h (as.map ptr) js fp → Fresh h → h.cells dst = some (wrap done) → dst ∉ fp →
      heights js ≤ n →
      ∃ h' out new, as.foldlM step h = .ok h' ∧ h'.cells dst = some (wrap (done ++ out)) ∧
        Reps h' (out.map ptr) js new ∧ New h h' dst new ∧ h'.strings = h.strings + strsList js ∧
        (∃ ys, out = List.zipWith mk as ys ∧ ys.length = as.length) := by
  induction as with
  | nil =>
    intro h js fp done r w hd _ _
    cases r
    exact ⟨h, [], [], rfl, by simpa using hd, .nil, ⟨fun _ _ _ => rfl, by simp, by simp, w, Nat.le_refl _⟩, by simp [strsList], [], rfl, rfl⟩
  | cons a as ih =>
    intro h js fp done r w hd dfp len
    rw [List.map_cons] at r
    cases r with
    | @cons _ j f1 _ js f2 r rs =>
      simp only [List.mem_append, not_or] at dfp
      simp only [heights] at len
      have dlt : dst < h.next := w.lt (by simp [hd])
      have lt1 : ∀ y ∈ f1, y < h.next := fun y hy => w.lt (r.live y hy)
      have lt2 : ∀ y ∈ f2, y < h.next := fun y hy => w.lt (rs.live y hy)
      have wa : Fresh (alloc h).1 := by
        intro x hx
        simp only [alloc, upd] at hx ⊢
        rw [if_neg (by omega)]
        exact w x (by omega)
      have ra : Rep (alloc h).1 (ptr a) j f1 := r.frame fun y hy => by
        have := lt1 y hy
        simp only [alloc, upd]
        rw [if_neg (by omega)]
      obtain ⟨h2, n1, e2, r2, nw, st⟩ := cp (alloc h).1 (alloc h).2 (ptr a) j f1 ra wa (by simp [alloc, upd])
        (fun c => by have := lt1 _ c; simp [alloc] at this) (by omega)
      have ge1 : ∀ y ∈ n1, h.next + 1 ≤ y := fun y hy => nw.ge y hy
      have nx : h.next + 1 ≤ h2.next := nw.next
      have old : ∀ y, y < h.next → h2.cells y = h.cells y := by
        intro y hy
        rw [nw.same y (by simp [alloc]; omega) (fun c => by have := ge1 y c; omega)]
        simp only [alloc, upd]
        rw [if_neg (by omega)]
      have hd2 : h2.cells dst = some (wrap done) := by rw [old dst dlt, hd]
      have e3 := hpush h2 done a (alloc h).2 hd2
      generalize h3def : ({ h2 with cells := upd h2.cells dst (some (wrap (done ++ [mk a (alloc h).2]))) } : Heap F) = h3 at e3
      have c3 : ∀ y, y ≠ dst → h3.cells y = h2.cells y := by
        intro y hy; subst h3def; simp [upd, hy]
      have c3d : h3.cells dst = some (wrap (done ++ [mk a (alloc h).2])) := by
        subst h3def; simp [upd]
      have n3 : h3.next = h2.next := by subst h3def; rfl
      have s3 : h3.strings = h2.strings := by subst h3def; rfl
      have w3 : Fresh h3 := by
        intro y hy
        rw [n3] at hy
        rw [c3 y (by omega)]
        exact nw.fresh y hy
      have rs3 : Reps h3 (as.map ptr) js f2 := rs.frame fun y hy => by
        have := lt2 y hy
        rw [c3 y (fun c => dfp.2 (c ▸ hy)), old y this]
      obtain ⟨h4, out, n2, e4, d4, r4, nw4, st4, ys, hys, lys⟩ := ih h3 js f2 _ rs3 w3 c3d dfp.2 (by omega)
      have lt3 : ∀ y ∈ (alloc h).2 :: n1, y < h2.next := fun y hy => nw.fresh.lt (r2.live y hy)
      refine ⟨h4, mk a (alloc h).2 :: out, ((alloc h).2 :: n1) ++ n2, ?_, ?_, ?_, ?_, ?_, (alloc h).2 :: ys, ?_, ?_⟩
      · rw [List.foldlM_cons, hstep, e2]
        change (push h2 a (alloc h).2 >>= fun s => as.foldlM step s) = _
        rw [e3]; exact e4
      · rw [d4]; simp
      · rw [List.map_cons, hmk]
        refine .cons (r2.frame fun y hy => ?_) r4
        have h1 := lt3 y hy
        have h2 : y ≠ dst := by
          rcases List.mem_cons.mp hy with rfl | hy
          · simp only [alloc]; omega
          · have := ge1 y hy; omega
        rw [nw4.same y h2 (fun c => by have := nw4.ge y c; omega), c3 y h2]
      · refine ⟨?_, ?_, ?_, nw4.fresh, ?_⟩
        · intro y hy hn
          simp only [List.cons_append, List.mem_cons, List.mem_append, not_or] at hn
          rw [nw4.same y hy hn.2.2, c3 y hy, nw.same y hn.1 hn.2.1]
          simp only [alloc, upd] at hn ⊢
          rw [if_neg hn.1]
        · intro y hy
          simp only [List.cons_append, List.mem_cons, List.mem_append] at hy
          rcases hy with rfl | hy | hy
          · exact Nat.le_refl _
          · have := ge1 y hy; omega
          · have := nw4.ge y hy; omega
        · rw [List.nodup_append]
          refine ⟨?_, nw4.nodup, ?_⟩
          · rw [List.nodup_cons]
            exact ⟨fun c => by have := ge1 _ c; simp [alloc] at this; omega, nw.nodup⟩
          · intro y hy z hz e
            have := lt3 y hy
            have := nw4.ge z hz
            omega
        · have := nw4.next; omega
      · rw [st4, s3, st, strsList]
        simp only [alloc]
        omega
      · rw [hys]; rfl
      · simp [lys]

theorem write_ok {h : Heap F} {x : Nat} (l : h.cells x ≠ none) (c : Cell F) :
    write h x c = .ok { h with cells := upd h.cells x (some c) } := by
  rw [write]
  cases hc : h.cells x with
  | none => exact absurd hc l
  | some d => rfl

theorem New.write {h : Heap F} {x : Nat} (w : Fresh h) (l : h.cells x ≠ none) (c : Cell F) (n : Nat) :
    New h { h with cells := upd h.cells x (some c), strings := n } x [] := by
  have := w.lt l
  refine ⟨?_, by simp, by simp, ?_, Nat.le_refl _⟩
  · intro y hy _; simp [upd, hy]
  · intro y hy
    change h.next ≤ y at hy
    simp only [upd]
    rw [if_neg (by omega)]; exact w y hy

theorem pushItem_ok {h : Heap F} {x : Nat} {l} (hc : h.cells x = some (.arr l)) (y : Nat) :
    pushItem h x y = .ok { h with cells := upd h.cells x (some (.arr (l ++ [y]))) } := by
  rw [pushItem, read, hc]
  exact write_ok (by simp [hc]) _

theorem pushMember_ok {h : Heap F} {x : Nat} {l} (hc : h.cells x = some (.obj l)) (k : Str) (y : Nat) :
    pushMember h x k y = .ok { h with cells := upd h.cells x (some (.obj (l ++ [(k, y)]))) } := by
  rw [pushMember, read, hc]
  exact write_ok (by simp [hc]) _

theorem map_fst_zip (ms : List (Str × Nat)) (ys : List Nat) (e : ys.length = ms.length) :
    (List.zipWith (fun m y => (m.1, y)) ms ys).map Prod.fst = ms.map Prod.fst := by
  induction ms generalizing ys with
  | nil => simp
  | cons m ms ih =>
    cases ys with
    | nil => simp at e
    | cons y ys => simp [ih ys (by simpa using e)]

theorem New.after_write {h h1 h' : Heap F} {dst : Nat} {new : List Nat} {c : Cell F}
    (e : h1 = { h with cells := upd h.cells dst (some c) }) (nw : New h1 h' dst new) : New h h' dst new := by
  subst e
  refine ⟨?_, nw.ge, nw.nodup, nw.fresh, nw.next⟩
  intro y hy hn
  rw [nw.same y hy hn]
  simp [upd, hy]

theorem copyUnion_height (n : Nat) :
    ∀ (h : Heap F) dst src j fp, Rep h src j fp → Fresh h → h.cells dst ≠ none → dst ∉ fp → Print.height j ≤ n →
      ∃ h' new, copyUnion n h dst src = .ok h' ∧ Rep h' dst j (dst :: new) ∧ New h h' dst new ∧
        h'.strings = h.strings + strs j := by
  induction n with
  | zero =>
    intro h dst src j fp r _ _ _ len
    have := r.height_pos
    omega
  | succ n ih =>
    intro h dst src j fp r w l d len
    have scalar : ∀ (c : Cell F) (e : h.cells src = some c), (∀ l, c ≠ .arr l) → (∀ l, c ≠ .obj l) → (∀ s, c ≠ .str s) →
        copyUnion (n + 1) h dst src = .ok { h with cells := upd h.cells dst (some c) } := by
      intro c e n1 n2 n3
      rw [copyUnion, read, e, ← write_ok l c]
      cases c with
      | arr l => exact absurd rfl (n1 l)
      | obj l => exact absurd rfl (n2 l)
      | str l => exact absurd rfl (n3 l)
      | _ => rfl
    cases r with
    | null e => exact ⟨_, [], scalar _ e (by simp) (by simp) (by simp), .null (by simp [upd]), New.write w l _ _, by simp [strs]⟩
    | bool e => exact ⟨_, [], scalar _ e (by simp) (by simp) (by simp), .bool (by simp [upd]), New.write w l _ _, by simp [strs]⟩
    | int e => exact ⟨_, [], scalar _ e (by simp) (by simp) (by simp), .int (by simp [upd]), New.write w l _ _, by simp [strs]⟩
    | float e => exact ⟨_, [], scalar _ e (by simp) (by simp) (by simp), .float (by simp [upd]), New.write w l _ _, by simp [strs]⟩
    | @str _ s e =>
      refine ⟨{ h with cells := upd h.cells dst (some (.str s)), strings := h.strings + 1 }, [], ?_, .str (by simp [upd]),
        New.write w l _ _, by simp [strs]⟩
      rw [copyUnion, read, e]
      exact write_ok (h := { h with strings := h.strings + 1 }) l _
    | @arr _ ids js fp e rs =>
      simp only [List.mem_cons, not_or] at d
      have := w.lt l
      generalize h1def : ({ h with cells := upd h.cells dst (some (.arr [])) } : Heap F) = h1
      have rs1 : Reps h1 (ids.map id) js fp := by
        rw [List.map_id]
        refine rs.frame fun y hy => ?_
        subst h1def
        simp only [upd]
        rw [if_neg (fun (c : y = dst) => d.2 (c ▸ hy))]
      have w1 : Fresh h1 := by subst h1def; exact (New.write w l _ h.strings).fresh
      obtain ⟨h', out, new, e', d', r', nw, st, ys, hys, lys⟩ := copy_fold (n := n) dst id (fun _ y => y) Cell.arr
        (copyItem (copyUnion n) dst) (fun h _ y => pushItem h dst y) (fun _ _ => rfl)
        (fun h l a y hc => pushItem_ok hc y) (fun _ _ => rfl) ih ids h1 js fp [] rs1 w1 (by subst h1def; simp [upd]) d.2
        (by simp only [Print.height] at len; omega)
      refine ⟨h', new, ?_, .arr d' (by simpa using r'), nw.after_write h1def.symm, by subst h1def; simpa [strs] using st⟩
      rw [copyUnion, read, e]
      change (write h dst (.arr []) >>= fun h => ids.foldlM (copyItem (copyUnion n) dst) h) = _
      rw [write_ok l, h1def]
      exact e'
    | @obj _ ms jms fp e ks rs =>
      simp only [List.mem_cons, not_or] at d
      generalize h1def : ({ h with cells := upd h.cells dst (some (.obj [])) } : Heap F) = h1
      have rs1 : Reps h1 (ms.map Prod.snd) (jms.map Prod.snd) fp := by
        refine rs.frame fun y hy => ?_
        subst h1def
        simp only [upd]
        rw [if_neg (fun (c : y = dst) => d.2 (c ▸ hy))]
      have w1 : Fresh h1 := by subst h1def; exact (New.write w l _ h.strings).fresh
      obtain ⟨h', out, new, e', d', r', nw, st, ys, hys, lys⟩ := copy_fold (n := n) dst Prod.snd
        (fun m y => (m.1, y)) Cell.obj
        (copyMember (copyUnion n) dst) (fun h m y => pushMember h dst m.1 y) (fun _ _ => rfl)
        (fun h l a y hc => pushMember_ok hc a.1 y) (fun _ _ => rfl) ih ms h1 _ fp [] rs1 w1 (by subst h1def; simp [upd]) d.2
        (by simp only [Print.height, ← heights_map] at len; omega)
      refine ⟨h', new, ?_, .obj d' ?_ r', nw.after_write h1def.symm, by subst h1def; simpa [strs, strsList_map] using st⟩
      · rw [copyUnion, read, e]
        change (write h dst (.obj []) >>= fun h => ms.foldlM (copyMember (copyUnion n) dst) h) = _
        rw [write_ok l, h1def]
        exact e'
      · rw [List.nil_append, hys, map_fst_zip ms ys lys]; exact ks

theorem copyUnion_ok (n : Nat) (h : Heap F) (dst src : Nat) (j : Json F) (fp : List Nat) (r : Rep h src j fp) (w : Fresh h)
    (l : h.cells dst ≠ none) (d : dst ∉ fp) (len : fp.length ≤ n) :
    ∃ h' new, copyUnion n h dst src = .ok h' ∧ Rep h' dst j (dst :: new) ∧ New h h' dst new ∧
      h'.strings = h.strings + strs j :=
  copyUnion_height n h dst src j fp r w l d (Nat.le_trans r.height len)

/-! ## What a walk through the memory finds -/

theorem nodesList_map (ms : List (Str × Json F)) : nodesList (ms.map Prod.snd) = nodesMembers ms := by
  induction ms with
  | nil => simp [nodesList, nodesMembers]
  | cons m ms ih => obtain ⟨k, j⟩ := m; simp [nodesList, nodesMembers, ih]

/-- What the proofs say about the memory is what a walk through it finds. -/
theorem Rep.facts {h : Heap F} {x j fp} (r : Rep h x j fp) : Holds h x j ∧ fp.length = nodes j := by
  refine Rep.rec (motive_1 := fun x j fp _ => Holds h x j ∧ fp.length = nodes j)
    (motive_2 := fun ids js fp _ => ids.length = js.length ∧ fp.length = nodesList js ∧
      ∀ (n y : Nat) (j : Json F), ids[n]? = some y → js[n]? = some j → Holds h y j)
    ?_ ?_ ?_ ?_ ?_ ?_ ?_ ?_ ?_ r
  · exact fun c => ⟨.null c, by simp [nodes]⟩
  · exact fun c => ⟨.bool c, by simp [nodes]⟩
  · exact fun c => ⟨.int c, by simp [nodes]⟩
  · exact fun c => ⟨.float c, by simp [nodes]⟩
  · exact fun c => ⟨.str c, by simp [nodes]⟩
  · exact fun c _ ih => ⟨.arr c ih.1 ih.2.2, by simp [nodes, ih.2.1]; omega⟩
  · intro x ms jms fp c k _ ih
    refine ⟨.obj c k ?_, by simp [nodes, ih.2.1, nodesList_map]; omega⟩
    intro n k k' y j h1 h2
    exact ih.2.2 n y j (by simp [h1]) (by simp [h2])
  · simp [nodesList]
  · intro x j fp ids js fps _ _ i1 i2
    refine ⟨by simp [i2.1], by simp [nodesList, i1.2, i2.2.1], ?_⟩
    intro n
    cases n with
    | zero => intro y j' h1 h2; simp at h1 h2; subst h1; subst h2; exact i1.1
    | succ n => intro y j' h1 h2; exact i2.2.2 n y j' (by simpa using h1) (by simpa using h2)

theorem Reps.facts {h : Heap F} {ids js fp} (r : Reps h ids js fp) : ids.length = js.length ∧ fp.length = nodesList js := by
  induction ids generalizing js fp with
  | nil => cases r; simp [nodesList]
  | cons x ids ih =>
    cases r with
    | cons r rs => simp [nodesList, (ih rs).1, (ih rs).2, r.facts.2]

end Caitlyn.JsonNodes
