import Verif.Proofs.JsonNodes

/-!
# How many calls of the destructor and of the copy constructor of `JsonData` run inside one another

The first argument of `deleteNode` and of `copyUnion` is the number of calls there is room for. `deleteNode_height` and `copyUnion_height` say
that the height of the value is enough; here it is shown that less is not.
-/

namespace Caitlyn.JsonNodes
open Spec
open Spec.Print (height heights heightsOf)
variable {F : Type}

theorem fold_delete_short {n : Nat}
    (del : ∀ (h : Heap F) x j fp, Rep h x j fp → fp.Nodup → n < Print.height j → deleteNode n h x = .error .fuel) (ids : List Nat) :
    ∀ (h : Heap F) js fp, Reps h ids js fp → fp.Nodup → n < heights js → ids.foldlM (deleteNode n) h = .error .fuel := by
  induction ids with
  | nil =>
    intro h js fp r _ len
    cases r
    simp [heights] at len
  | cons x ids ih =>
    intro h js fp r nd len
    cases r with
    | @cons _ j f1 _ js f2 r rs =>
      rw [List.nodup_append] at nd
      rw [List.foldlM_cons]
      by_cases hj : n < Print.height j
      · rw [del h x j f1 r nd.1 hj]; rfl
      · obtain ⟨h1, e1, g1⟩ := deleteNode_height n h x j f1 r nd.1 (by omega)
        have rs' : Reps h1 ids js f2 := g1.frame rs fun y hy c => nd.2.2 y c y hy rfl
        rw [e1]
        exact ih h1 js f2 rs' nd.2.1 (by simp only [heights] at len; omega)

theorem deleteNode_short (n : Nat) :
    ∀ (h : Heap F) x j fp, Rep h x j fp → fp.Nodup → n < Print.height j → deleteNode n h x = .error .fuel := by
  induction n with
  | zero => intros; rfl
  | succ n ih =>
    intro h x j fp r nd len
    obtain ⟨c, js, tl, hc, rfl, rs, hj⟩ := r.children
    rw [List.nodup_cons] at nd
    have e := fold_delete_short ih _ h js tl rs nd.2 (by omega)
    rw [deleteNode, read, hc]
    change ((c.children.foldlM (deleteNode n) h) >>= fun h => free h x) = _
    rw [e]
    rfl

theorem Fresh.alloc {h : Heap F} (w : Fresh h) : Fresh (alloc h).1 := by
  intro x hx
  simp only [JsonNodes.alloc, upd] at hx ⊢
  rw [if_neg (by omega)]
  exact w x (by omega)

theorem Rep.alloc {h : Heap F} {x j fp} (w : Fresh h) (r : Rep h x j fp) : Rep (JsonNodes.alloc h).1 x j fp :=
  r.frame fun y hy => by
    have := w.lt (r.live y hy)
    simp only [JsonNodes.alloc, upd]
    rw [if_neg (by omega)]

/-- The first of several values that is higher than `n`. -/
theorem Reps.first {α : Type} {n : Nat} {h : Heap F} (ptr : α → Nat) (as : List α) :
    ∀ js fp, Reps h (as.map ptr) js fp → n < heights js → ∃ a1 a a2 j1 f1 j f, as = a1 ++ a :: a2 ∧ Reps h (a1.map ptr) j1 f1 ∧
      Rep h (ptr a) j f ∧ heights j1 ≤ n ∧ n < Print.height j ∧ (∀ y ∈ f1, y ∈ fp) ∧ ∀ y ∈ f, y ∈ fp := by
  induction as with
  | nil =>
    intro js fp r len
    cases r
    simp [heights] at len
  | cons a as ih =>
    intro js fp r len
    rw [List.map_cons] at r
    cases r with
    | @cons _ j f1 _ js f2 r rs =>
      by_cases hj : n < Print.height j
      · exact ⟨[], a, as, [], [], j, f1, rfl, .nil, r, by simp [heights], hj, by simp, fun y hy => by simp [hy]⟩
      · obtain ⟨a1, b, a2, j1, g1, k, g, rfl, r1, r2, l1, l2, s1, s2⟩ := ih js f2 rs (by simp only [heights] at len; omega)
        refine ⟨a :: a1, b, a2, j :: j1, f1 ++ g1, k, g, rfl, .cons r r1, r2, by simp only [heights]; omega, l2, ?_, fun y hy => ?_⟩
        · intro y hy
          rcases List.mem_append.mp hy with hy | hy
          · simp [hy]
          · simp [s1 y hy]
        · simp [s2 y hy]

theorem copy_fold_short {α : Type} {n : Nat} (dst : Nat) (ptr : α → Nat) (mk : α → Nat → α) (wrap : List α → Cell F)
    (step : Heap F → α → Res (Heap F)) (push : Heap F → α → Nat → Res (Heap F))
    (hstep : ∀ h a, step h a = copyUnion n (alloc h).1 (alloc h).2 (ptr a) >>= fun h2 => push h2 a (alloc h).2)
    (hpush : ∀ h l a y, h.cells dst = some (wrap l) →
      push h a y = .ok { h with cells := upd h.cells dst (some (wrap (l ++ [mk a y]))) })
    (hmk : ∀ a y, ptr (mk a y) = y)
    (cp : ∀ (h : Heap F) dst src j fp, Rep h src j fp → Fresh h → h.cells dst ≠ none → dst ∉ fp → n < Print.height j →
      copyUnion n h dst src = .error .fuel)
    (as : List α) (h : Heap F) (js : List (Json F)) (fp : List Nat) (r : Reps h (as.map ptr) js fp) (w : Fresh h)
    (hd : h.cells dst = some (wrap [])) (d : dst ∉ fp) (len : n < heights js) : as.foldlM step h = .error .fuel := by
  obtain ⟨a1, a, a2, j1, f1, j, f, rfl, r1, r2, l1, l2, s1, s2⟩ := r.first ptr as js fp len
  obtain ⟨h1, out, new, e1, -, -, nw, -⟩ := copy_fold (n := n) dst ptr mk wrap step push hstep hpush hmk (copyUnion_height n) a1 h j1 f1 []
    r1 w hd (fun c => d (s1 _ c)) l1
  have r3 : Rep h1 (ptr a) j f := r2.frame fun y hy =>
    nw.same y (fun c => d (c ▸ s2 y hy)) (fun c => by have := nw.ge y c; have := w.lt (r2.live y hy); omega)
  have e := cp (alloc h1).1 (alloc h1).2 (ptr a) j f (r3.alloc nw.fresh) nw.fresh.alloc (by simp [alloc, upd])
    (fun c => by have := nw.fresh.lt (r3.live _ c); simp [alloc] at this) l2
  rw [List.foldlM_append, e1]
  change ((a :: a2).foldlM step h1) = _
  rw [List.foldlM_cons, hstep, e]
  rfl

theorem copyUnion_short (n : Nat) :
    ∀ (h : Heap F) dst src j fp, Rep h src j fp → Fresh h → h.cells dst ≠ none → dst ∉ fp → n < Print.height j →
      copyUnion n h dst src = .error .fuel := by
  induction n with
  | zero => intros; rfl
  | succ n ih =>
    intro h dst src j fp r w l d len
    cases r with
    | null e => simp [Print.height] at len
    | bool e => simp [Print.height] at len
    | int e => simp [Print.height] at len
    | float e => simp [Print.height] at len
    | str e => simp [Print.height] at len
    | @arr _ ids js fp e rs =>
      simp only [List.mem_cons, not_or] at d
      generalize h1def : ({ h with cells := upd h.cells dst (some (.arr [])) } : Heap F) = h1
      have rs1 : Reps h1 (ids.map id) js fp := by
        rw [List.map_id]
        refine rs.frame fun y hy => ?_
        subst h1def
        simp only [upd]
        rw [if_neg (fun (c : y = dst) => d.2 (c ▸ hy))]
      have w1 : Fresh h1 := by subst h1def; exact (New.write w l _ h.strings).fresh
      have e' := copy_fold_short (n := n) dst id (fun _ y => y) Cell.arr
        (copyItem (copyUnion n) dst) (fun h _ y => pushItem h dst y) (fun _ _ => rfl)
        (fun h l a y hc => pushItem_ok hc y) (fun _ _ => rfl) ih ids h1 js fp rs1 w1 (by subst h1def; simp [upd]) d.2
        (by simp only [Print.height] at len; omega)
      rw [copyUnion, read, e]
      change (write h dst (.arr []) >>= fun h => ids.foldlM (copyItem (copyUnion n) dst) h) = _
      rw [write_ok l, h1def]
      exact e'
    | @obj _ ms jms fp e ks rs =>
      simp only [List.mem_cons, not_or] at d
      generalize h1def : ({ h with cells := upd h.cells dst (some (.obj [])) } : Heap F) = h1
      have rs1 : Reps h1 (ms.map Prod.snd) (jms.map Prod.snd) fp := by
        refine rs.frame fun y hy => ?_
        subst h1def
        simp only [upd]
        rw [if_neg (fun (c : y = dst) => d.2 (c ▸ hy))]
      have w1 : Fresh h1 := by subst h1def; exact (New.write w l _ h.strings).fresh
      have e' := copy_fold_short (n := n) dst Prod.snd
        (fun m y => (m.1, y)) Cell.obj
        (copyMember (copyUnion n) dst) (fun h m y => pushMember h dst m.1 y) (fun _ _ => rfl)
        (fun h l a y hc => pushMember_ok hc a.1 y) (fun _ _ => rfl) ih ms h1 _ fp rs1 w1 (by subst h1def; simp [upd]) d.2
        (by simp only [Print.height, ← heights_map] at len; omega)
      rw [copyUnion, read, e]
      change (write h dst (.obj []) >>= fun h => ms.foldlM (copyMember (copyUnion n) dst) h) = _
      rw [write_ok l, h1def]
      exact e'

/-! ## How high the values of a program are -/

theorem height_pos (j : Json F) : 0 < Print.height j := by
  cases j <;> simp [Print.height] <;> omega

theorem heights_modify (f : Json F → Json F) (b : Nat) (hf : ∀ j, Print.height (f j) ≤ max (Print.height j) b) :
    ∀ (js : List (Json F)) (i : Nat), heights (js.modify i f) ≤ max (heights js) b
  | [], i => by simp [heights]
  | j :: js, 0 => by
    have := hf j
    simp only [List.modify_zero_cons, heights]; omega
  | j :: js, i + 1 => by
    have := heights_modify f b hf js i
    simp only [List.modify_succ_cons, heights]; omega

theorem heightsOf_change (k : Str) (f : Json F → Json F) (b : Nat) (hf : ∀ j, Print.height (f j) ≤ max (Print.height j) b) :
    ∀ ms : List (Str × Json F), heightsOf (changeKey k f ms) ≤ max (heightsOf ms) b
  | [] => by simp [changeKey, heightsOf]
  | (k', v) :: ms => by
    have h1 := heightsOf_change k f b hf ms
    have h2 := hf v
    rw [changeKey]
    split <;> simp only [heightsOf] <;> omega

theorem height_put (new : Json F) : ∀ (p : List Step) (j : Json F),
    Print.height (put new p j) ≤ max (Print.height j) (p.length + Print.height new)
  | [], j => by simp only [put, List.length_nil]; omega
  | .key k :: p, .obj ms => by
    have := heightsOf_change k (put new p) _ (height_put new p) ms
    simp only [put, Print.height, List.length_cons]; omega
  | .index i :: p, .arr js => by
    have := heights_modify (put new p) _ (height_put new p) js i
    simp only [put, Print.height, List.length_cons]; omega
  | .key k :: p, .arr js | .key k :: p, .null | .key k :: p, .bool _ | .key k :: p, .int _ | .key k :: p, .float _
  | .key k :: p, .str _ | .index i :: p, .obj _ | .index i :: p, .null | .index i :: p, .bool _ | .index i :: p, .int _
  | .index i :: p, .float _ | .index i :: p, .str _ => by simp only [put]; omega

theorem height_mem {j : Json F} : ∀ {js : List (Json F)} {i : Nat}, js[i]? = some j → Print.height j ≤ heights js
  | [], i, h => by simp at h
  | k :: js, 0, h => by simp at h; subst h; simp only [heights]; omega
  | k :: js, i + 1, h => by
    have := height_mem (js := js) (i := i) (by simpa using h)
    simp only [heights]; omega

theorem height_member {k : Str} {j : Json F} : ∀ {ms : List (Str × Json F)}, Json.findMember k ms = some j → Print.height j ≤ heightsOf ms
  | [], h => by simp [Json.findMember] at h
  | (k', v) :: ms, h => by
    rw [Json.findMember] at h
    split at h
    · simp at h; subst h; simp only [heightsOf]; omega
    · have := height_member h
      simp only [heightsOf]; omega

theorem height_part : ∀ {p : List Step} {j v : Json F}, part p j = some v → p.length + Print.height v ≤ Print.height j
  | [], j, v, h => by simp [part] at h; subst h; simp
  | .key k :: p, .obj ms, v, h => by
    simp only [part, Option.bind_eq_some_iff] at h
    obtain ⟨u, h1, h2⟩ := h
    have := height_part h2
    have := height_member h1
    simp only [Print.height, List.length_cons]; omega
  | .index i :: p, .arr js, v, h => by
    simp only [part, Option.bind_eq_some_iff] at h
    obtain ⟨u, h1, h2⟩ := h
    have := height_part h2
    have := height_mem h1
    simp only [Print.height, List.length_cons]; omega
  | .key k :: p, .arr js, v, h | .key k :: p, .null, v, h | .key k :: p, .bool _, v, h | .key k :: p, .int _, v, h
  | .key k :: p, .float _, v, h | .key k :: p, .str _, v, h | .index i :: p, .obj _, v, h | .index i :: p, .null, v, h
  | .index i :: p, .bool _, v, h | .index i :: p, .int _, v, h | .index i :: p, .float _, v, h | .index i :: p, .str _, v, h => by
    simp [part] at h

theorem height_look {vars : List (Json F)} {p : List Step} {v : Json F} (h : look vars p = some v) :
    p.length + Print.height v ≤ 1 + heights vars := by
  match p, h with
  | .index i :: p, h =>
    simp only [look, Option.bind_eq_some_iff] at h
    obtain ⟨u, h1, h2⟩ := h
    have := height_part h2
    have := height_mem h1
    simp only [List.length_cons]; omega

theorem height_store (vars : List (Json F)) (p : List Step) (new : Json F) :
    heights (store vars p new) + 1 ≤ max (heights vars + 1) (p.length + Print.height new) := by
  match p with
  | [] => simp only [store]; omega
  | .key k :: p => simp only [store]; omega
  | .index i :: p =>
    have := heights_modify (put new p) _ (height_put new p) vars i
    simp only [store, List.length_cons]; omega

theorem heights_last (v : Json F) : ∀ js : List (Json F), heights (js ++ [v]) = max (heights js) (Print.height v)
  | [] => by simp [heights]
  | j :: js => by simp only [List.cons_append, heights, heights_last v js]; omega

theorem heightsOf_last (k : Str) (v : Json F) : ∀ ms : List (Str × Json F), heightsOf (ms ++ [(k, v)]) = max (heightsOf ms) (Print.height v)
  | [] => by simp [heightsOf]
  | (k', j) :: ms => by simp only [List.cons_append, heightsOf, heightsOf_last k v ms]; omega

theorem heights_dropLast : ∀ js : List (Json F), heights js.dropLast ≤ heights js
  | [] => by simp
  | [j] => by simp [heights]
  | j :: k :: js => by
    have := heights_dropLast (k :: js)
    simp only [List.dropLast_cons_cons, heights] at this ⊢; omega

theorem height_value (v : Scalar F) : Print.height (value v) = 1 := by
  cases v <;> simp [value, Print.height, heights, heightsOf]

theorem height_withKey (k : Str) (v : Json F) : Print.height (withKey k v) ≤ Print.height v + 1 := by
  cases v with
  | obj ms =>
    rw [withKey]
    split
    · omega
    · simp only [Print.height, heightsOf_last]; omega
  | _ => simp only [withKey, Print.height, heightsOf]; omega

theorem height_withItem (w v : Json F) : Print.height (withItem w v) ≤ max (Print.height v) (1 + Print.height w) := by
  cases v with
  | arr js => simp only [withItem, Print.height, heights_last]; omega
  | _ => simp only [withItem, Print.height, heights]; omega

/-- One statement makes the highest value at most twice as high. -/
theorem height_meaning {vars vars' : List (Json F)} {s : Stmt F} (m : meaning vars s = some vars') :
    heights vars' ≤ max 1 (2 * heights vars) := by
  cases s with
  | declare v =>
    simp only [meaning, Option.some.injEq] at m
    subst m
    rw [heights_last, height_value]; omega
  | declareCopy q =>
    simp only [meaning, Option.map_eq_some_iff] at m
    obtain ⟨v, h, rfl⟩ := m
    have := height_look h
    cases q with
    | nil => simp [look] at h
    | cons => rw [heights_last]; simp only [List.length_cons] at this; omega
  | declareMove q =>
    simp only [meaning, Option.map_eq_some_iff] at m
    obtain ⟨v, h, rfl⟩ := m
    have := height_look h
    have := height_store vars q .null
    have := height_pos v
    cases q with
    | nil => simp [look] at h
    | cons => rw [heights_last]; simp only [List.length_cons, Print.height] at *; omega
  | leave =>
    simp only [meaning] at m
    split at m
    · cases m
    · cases m
      have := heights_dropLast vars
      omega
  | set p v =>
    simp only [meaning, Option.map_eq_some_iff] at m
    obtain ⟨u, h, rfl⟩ := m
    have := height_look h
    have := height_store vars p (value v)
    have := height_pos u
    rw [height_value] at *
    omega
  | assign p q =>
    simp only [meaning, Option.bind_eq_some_iff] at m
    obtain ⟨u, h1, v, h2, m⟩ := m
    have e1 := height_look h1
    have e2 := height_look h2
    have e3 := height_pos u
    split at m
    · cases m; omega
    · split at m
      · cases m
        have := height_store vars p v
        cases q with
        | nil => simp [look] at h2
        | cons => simp only [List.length_cons] at *; omega
      · cases m
  | moveAssign p q =>
    simp only [meaning, Option.bind_eq_some_iff] at m
    obtain ⟨u, h1, v, h2, m⟩ := m
    have e1 := height_look h1
    have e2 := height_look h2
    have e3 := height_pos u
    have e4 := height_pos v
    split at m
    · cases m; omega
    · split at m
      · cases m
        have := height_store (store vars q .null) p v
        have := height_store vars q .null
        cases q with
        | nil => simp [look] at h2
        | cons => simp only [List.length_cons, Print.height] at *; omega
      · cases m
  | touch p k =>
    simp only [meaning, Option.map_eq_some_iff] at m
    obtain ⟨u, h, rfl⟩ := m
    have := height_look h
    have := height_store vars p (withKey k u)
    have := height_withKey k u
    have := height_pos u
    cases p with
    | nil => simp [look] at h
    | cons => simp only [List.length_cons] at *; omega
  | append p q =>
    simp only [meaning, Option.bind_eq_some_iff, Option.map_eq_some_iff] at m
    obtain ⟨u, h1, v, h2, rfl⟩ := m
    have := height_look h1
    have := height_look h2
    have := height_store vars p (withItem v u)
    have := height_withItem v u
    have := height_pos u
    cases q with
    | nil => simp [look] at h2
    | cons => simp only [List.length_cons] at *; omega

theorem height_meanings {ss : List (Stmt F)} {vars vars' : List (Json F)} (n : Nat) (hn : heights vars ≤ 2 ^ n)
    (m : meanings vars ss = some vars') : heights vars' ≤ 2 ^ (n + ss.length) := by
  induction ss generalizing vars n with
  | nil =>
    simp only [meanings, Option.some.injEq] at m
    subst m
    exact hn
  | cons s ss ih =>
    simp only [meanings, Option.bind_eq_some_iff] at m
    obtain ⟨v1, m1, m2⟩ := m
    have h1 := height_meaning m1
    have h2 : 1 ≤ 2 ^ n := Nat.one_le_two_pow
    have := ih (n + 1) (by rw [Nat.pow_succ]; omega) m2
    rw [List.length_cons]
    rwa [show n + (ss.length + 1) = n + 1 + ss.length by omega]

end Caitlyn.JsonNodes
