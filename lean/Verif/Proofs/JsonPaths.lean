import Verif.Proofs.JsonNodes

/-!
# Places: the part of the memory a path leads to, and what is left when it is taken out
-/

namespace Caitlyn.JsonNodes
open Spec
variable {F : Type}

/-- The position of the first `k`. -/
def pos (k : Str) : List Str → Nat
  | [] => 0
  | x :: xs => if x = k then 0 else pos k xs + 1

theorem pos_get {k : Str} {l : List Str} (h : pos k l < l.length) : l[pos k l]? = some k := by
  induction l with
  | nil => simp at h
  | cons x xs ih =>
    rw [pos] at h ⊢
    split
    · next e => simp [e]
    · next e =>
      rw [if_neg e] at h
      simpa using ih (by simpa using h)

theorem lookup_pos (k : Str) (ms : List (Str × Nat)) :
    lookup k ms = (ms.map Prod.snd)[pos k (ms.map Prod.fst)]? := by
  induction ms with
  | nil => rfl
  | cons m ms ih =>
    obtain ⟨k', y⟩ := m
    by_cases e : k' = k <;> simp [lookup, pos, e, ih]

theorem findMember_pos (k : Str) (ms : List (Str × Json F)) :
    Json.findMember k ms = (ms.map Prod.snd)[pos k (ms.map Prod.fst)]? := by
  induction ms with
  | nil => rfl
  | cons m ms ih =>
    obtain ⟨k', y⟩ := m
    by_cases e : k' = k <;> simp [Json.findMember, pos, e, ih]

theorem changeKey_pos (k : Str) (f : Json F → Json F) (ms : List (Str × Json F)) :
    changeKey k f ms = (ms.map Prod.fst).zip ((ms.map Prod.snd).modify (pos k (ms.map Prod.fst)) f) := by
  induction ms with
  | nil => rfl
  | cons m ms ih =>
    obtain ⟨k', y⟩ := m
    by_cases e : k' = k
    · simp [changeKey, pos, e, List.zip_map']
    · simp [changeKey, pos, e, ih]

/-- The parts of a value. -/
def kids : Json F → List (Json F)
  | .arr js => js
  | .obj ms => ms.map Prod.snd
  | _ => []

/-- The value with other parts. -/
def setKids : Json F → List (Json F) → Json F
  | .arr _, js => .arr js
  | .obj ms, js => .obj ((ms.map Prod.fst).zip js)
  | j, _ => j

/-- Which part a step leads to. -/
def slot : Step → Json F → Option Nat
  | .key k, .obj ms => some (pos k (ms.map Prod.fst))
  | .index i, .arr _ => some i
  | _, _ => none

theorem get_slot (s : Step) (p : List Step) (j : Json F) :
    part (s :: p) j = (slot s j).bind fun i => (kids j)[i]?.bind (part p) := by
  cases s <;> cases j <;> simp [part, slot, kids, findMember_pos]

theorem put_slot (v : Json F) (s : Step) (p : List Step) (j : Json F) :
    put v (s :: p) j = match slot s j with
      | some i => setKids j ((kids j).modify i (put v p))
      | none => j := by
  cases s <;> cases j <;> simp [put, slot, kids, setKids, changeKey_pos]

theorem slot_setKids (s : Step) (j : Json F) (js : List (Json F)) (e : js.length = (kids j).length) :
    slot s (setKids j js) = slot s j := by
  cases s <;> cases j <;> simp [slot, setKids]
  next k ms =>
    rw [List.map_fst_zip]
    simp [kids] at e; simp [e]

theorem kids_setKids (j : Json F) (js : List (Json F)) (e : js.length = (kids j).length) :
    kids (setKids j js) = js := by
  cases j <;> simp [kids, setKids] at e ⊢
  all_goals first
    | exact e.symm
    | exact e
    | (rw [List.map_snd_zip]; simp [e])
    | skip

theorem setKids_setKids (j : Json F) (js js' : List (Json F)) (e : js.length = (kids j).length) :
    setKids (setKids j js) js' = setKids j js' := by
  cases j <;> simp [setKids]
  rw [List.map_fst_zip]
  simp [kids] at e; simp [e]

theorem slot_inj {s t : Step} {j : Json F} {i : Nat} (hs : slot s j = some i) (ht : slot t j = some i)
    (l : i < (kids j).length) : s = t := by
  cases s <;> cases t <;> cases j <;> simp [slot] at hs ht
  · next k k' ms =>
    simp [kids] at l
    have a := pos_get (k := k) (l := ms.map Prod.fst) (by simp [hs, l])
    have b := pos_get (k := k') (l := ms.map Prod.fst) (by simp [ht, l])
    rw [hs] at a; rw [ht] at b
    rw [a] at b
    simpa using b
  · next a b js => rw [hs, ht]

theorem modify_set {α : Type} {l : List α} {i : Nat} {v : α} (f : α → α) (h : l[i]? = some v) :
    l.modify i f = l.set i (f v) := by
  apply List.ext_getElem?
  intro n
  rw [List.getElem?_modify, List.getElem?_set]
  have := (List.getElem?_eq_some_iff.mp h).1
  by_cases e : i = n
  · subst e
    rw [if_pos rfl, if_pos this, h]
    simp
  · simp [e]

/-- A value with parts, taken apart. -/
theorem Rep.parts {h : Heap F} {x j fp} (r : Rep h x j fp) {s : Step} {i : Nat} (e : slot s j = some i) :
    ∃ c tl, h.cells x = some c ∧ fp = x :: tl ∧ Reps h c.children (kids j) tl ∧
      (∀ y p, c.children[i]? = some y → find h x (s :: p) = find h y p) ∧
      (∀ (h' : Heap F) js' tl', h'.cells x = some c → Reps h' c.children js' tl' →
        Rep h' x (setKids j js') (x :: tl')) := by
  cases r with
  | null | bool | int | float | str => cases s <;> simp [slot] at e
  | @arr _ ids js tl hc rs =>
    cases s with
    | key k => simp [slot] at e
    | index k =>
      simp [slot] at e
      subst e
      refine ⟨_, tl, hc, rfl, rs, ?_, ?_⟩
      · intro y p hy
        rw [find, read, hc]
        simp only [Cell.children] at hy
        change (match ids[k]? with | some y => find h y p | none => .error .outOfRange) = _
        rw [hy]
      · intro h' js' tl' hc' rs'
        exact .arr hc' rs'
  | @obj _ ms jms tl hc ks rs =>
    cases s with
    | index k => simp [slot] at e
    | key k =>
      simp [slot] at e
      subst e
      refine ⟨_, tl, hc, rfl, rs, ?_, ?_⟩
      · intro y p hy
        rw [find, read, hc]
        simp only [Cell.children] at hy
        change (match lookup k ms with | some y => find h y p | none => .error .outOfRange) = _
        rw [lookup_pos, ks, hy]
      · intro h' js' tl' hc' rs'
        have l := rs'.length
        simp only [Cell.children, List.length_map] at l
        have l2 : ms.length = jms.length := by have := congrArg List.length ks; simpa using this
        refine .obj hc' ?_ ?_
        · rw [List.map_fst_zip (by simp; omega)]; exact ks
        · rw [List.map_snd_zip (by simp; omega)]; exact rs'

/-- Take out one of several values. -/
theorem Reps.focus {h : Heap F} {ids js fp i j} (r : Reps h ids js fp) (e : js[i]? = some j) :
    ∃ x f ctx, ids[i]? = some x ∧ Rep h x j f ∧ fp.Perm (ctx ++ f) ∧
      ∀ (h' : Heap F) j' f', (∀ y ∈ ctx, h'.cells y = h.cells y) → Rep h' x j' f' →
        ∃ fp', fp'.Perm (ctx ++ f') ∧ Reps h' ids (js.set i j') fp' := by
  induction i generalizing ids js fp with
  | zero =>
    cases r with
    | nil => simp at e
    | @cons x j1 f1 ids js fs r rs =>
      simp at e
      subst e
      refine ⟨x, f1, fs, by simp, r, List.perm_append_comm, ?_⟩
      intro h' j' f' a r'
      exact ⟨f' ++ fs, List.perm_append_comm, .cons r' (rs.frame a)⟩
  | succ i ih =>
    cases r with
    | nil => simp at e
    | @cons x j1 f1 ids js fs r rs =>
      obtain ⟨y, f, ctx, hy, ry, pm, k⟩ := ih rs (by simpa using e)
      refine ⟨y, f, f1 ++ ctx, by simpa using hy, ry, ?_, ?_⟩
      · rw [List.append_assoc]; exact pm.append_left _
      · intro h' j' f' a r'
        obtain ⟨fp', pm', rs'⟩ := k h' j' f' (fun y hy => a y (by simp [hy])) r'
        refine ⟨f1 ++ fp', ?_, ?_⟩
        · rw [List.append_assoc]; exact pm'.append_left _
        · rw [List.set_cons_succ]
          exact .cons (r.frame fun y hy => a y (by simp [hy])) rs'

/-- Take out two of several values. -/
theorem Reps.focus2 {h : Heap F} {ids js fp i k j1 j2} (r : Reps h ids js fp) (ne : i ≠ k) (e1 : js[i]? = some j1)
    (e2 : js[k]? = some j2) :
    ∃ x1 f1 x2 f2 ctx, ids[i]? = some x1 ∧ ids[k]? = some x2 ∧ Rep h x1 j1 f1 ∧ Rep h x2 j2 f2 ∧
      fp.Perm (ctx ++ (f1 ++ f2)) ∧
      ∀ (h' : Heap F) j1' f1' j2' f2', (∀ y ∈ ctx, h'.cells y = h.cells y) → Rep h' x1 j1' f1' → Rep h' x2 j2' f2' →
        ∃ fp', fp'.Perm (ctx ++ (f1' ++ f2')) ∧ Reps h' ids ((js.set k j2').set i j1') fp' := by
  induction i generalizing ids js fp k with
  | zero =>
    cases k with
    | zero => exact absurd rfl ne
    | succ k =>
      cases r with
      | nil => simp at e1
      | @cons x j f ids js fs r rs =>
        simp at e1; subst e1
        obtain ⟨y, g, ctx, hy, ry, pm, K⟩ := rs.focus (by simpa using e2)
        refine ⟨x, f, y, g, ctx, by simp, by simpa using hy, r, ry, ?_, ?_⟩
        · rw [List.perm_iff_count]
          intro a
          have := pm.count_eq a
          simp only [List.count_append] at this ⊢
          omega
        · intro h' j1' f1' j2' f2' a r1 r2
          obtain ⟨fp', pm', rs'⟩ := K h' j2' f2' a r2
          refine ⟨f1' ++ fp', ?_, by simpa using Reps.cons r1 rs'⟩
          rw [List.perm_iff_count]
          intro a
          have := pm'.count_eq a
          simp only [List.count_append] at this ⊢
          omega
  | succ i ih =>
    cases k with
    | zero =>
      cases r with
      | nil => simp at e1
      | @cons x j f ids js fs r rs =>
        simp at e2; subst e2
        obtain ⟨y, g, ctx, hy, ry, pm, K⟩ := rs.focus (by simpa using e1)
        refine ⟨y, g, x, f, ctx, by simpa using hy, by simp, ry, r, ?_, ?_⟩
        · rw [List.perm_iff_count]
          intro a
          have := pm.count_eq a
          simp only [List.count_append] at this ⊢
          omega
        · intro h' j1' f1' j2' f2' a r1 r2
          obtain ⟨fp', pm', rs'⟩ := K h' j1' f1' a r1
          refine ⟨f2' ++ fp', ?_, by simpa using Reps.cons r2 rs'⟩
          rw [List.perm_iff_count]
          intro a
          have := pm'.count_eq a
          simp only [List.count_append] at this ⊢
          omega
    | succ k =>
      cases r with
      | nil => simp at e1
      | @cons x j f ids js fs r rs =>
        obtain ⟨x1, f1, x2, f2, ctx, hx1, hx2, r1, r2, pm, K⟩ := ih rs (by omega : i ≠ k) (by simpa using e1)
          (by simpa using e2)
        refine ⟨x1, f1, x2, f2, f ++ ctx, by simpa using hx1, by simpa using hx2, r1, r2, ?_, ?_⟩
        · rw [List.append_assoc]; exact pm.append_left _
        · intro h' j1' f1' j2' f2' a r1 r2
          obtain ⟨fp', pm', rs'⟩ := K h' j1' f1' j2' f2' (fun y hy => a y (by simp [hy])) r1 r2
          refine ⟨f ++ fp', ?_, ?_⟩
          · rw [List.append_assoc]; exact pm'.append_left _
          · rw [List.set_cons_succ, List.set_cons_succ]
            exact .cons (r.frame fun y hy => a y (by simp [hy])) rs'

/-- Take out the value at a place. -/
theorem Rep.focus {h : Heap F} {p : List Step} {r j jp fp} (rr : Rep h r j fp) (e : part p j = some jp) :
    ∃ x f ctx, find h r p = .ok x ∧ Rep h x jp f ∧ fp.Perm (ctx ++ f) ∧
      ∀ (h' : Heap F) j' f', (∀ y ∈ ctx, h'.cells y = h.cells y) → Rep h' x j' f' →
        ∃ fp', fp'.Perm (ctx ++ f') ∧ Rep h' r (put j' p j) fp' := by
  induction p generalizing r j fp with
  | nil =>
    simp only [part, Option.some.injEq] at e
    subst e
    exact ⟨r, fp, [], rfl, rr, List.Perm.refl _, fun h' j' f' _ r' => ⟨f', List.Perm.refl _, r'⟩⟩
  | cons s p ih =>
    rw [get_slot] at e
    cases hs : slot s j with
    | none => simp [hs] at e
    | some i =>
      simp only [hs, Option.bind_some] at e
      cases hk : (kids j)[i]? with
      | none => simp [hk] at e
      | some v =>
        simp only [hk, Option.bind_some] at e
        obtain ⟨c, tl, hc, rfl, rs, hf, hb⟩ := rr.parts hs
        obtain ⟨y, f, ctx, hy, ry, pm, K⟩ := rs.focus hk
        obtain ⟨x, g, ctx2, hx, rx, pm2, K2⟩ := ih ry e
        refine ⟨x, g, r :: (ctx ++ ctx2), ?_, rx, ?_, ?_⟩
        · rw [hf y p hy]; exact hx
        · rw [List.perm_iff_count]
          intro a
          have h1 := pm.count_eq a
          have h2 := pm2.count_eq a
          simp only [List.count_append, List.count_cons] at *
          omega
        · intro h' j' f' a r'
          obtain ⟨f2, pf2, r2⟩ := K2 h' j' f' (fun y hy => a y (by simp [hy])) r'
          obtain ⟨f3, pf3, r3⟩ := K h' _ f2 (fun y hy => a y (by simp [hy])) r2
          refine ⟨r :: f3, ?_, ?_⟩
          · rw [List.perm_iff_count]
            intro a
            have h1 := pf2.count_eq a
            have h2 := pf3.count_eq a
            simp only [List.count_append, List.count_cons] at *
            omega
          · rw [put_slot, hs]
            simp only []
            rw [modify_set _ hk]
            exact hb h' _ f3 (by rw [a r (by simp)]; exact hc) r3

theorem lt_of_get? {α : Type} {l : List α} {i : Nat} {v : α} (h : l[i]? = some v) : i < l.length :=
  (List.getElem?_eq_some_iff.mp h).1

/-- Take out the values at two places, neither of which is a part of the other. -/
theorem Rep.focus2 {h : Heap F} {p q : List Step} {r j jp jq fp} (rr : Rep h r j fp) (ap : Apart p q)
    (ep : part p j = some jp) (eq : part q j = some jq) :
    ∃ x f y g ctx, find h r p = .ok x ∧ find h r q = .ok y ∧ Rep h x jp f ∧ Rep h y jq g ∧ fp.Perm (ctx ++ (f ++ g)) ∧
      ∀ (h' : Heap F) j' f' k' g', (∀ y ∈ ctx, h'.cells y = h.cells y) → Rep h' x j' f' → Rep h' y k' g' →
        ∃ fp', fp'.Perm (ctx ++ (f' ++ g')) ∧ Rep h' r (put j' p (put k' q j)) fp' := by
  induction p generalizing q r j fp with
  | nil => exact absurd (List.nil_prefix) ap.1
  | cons s p ih =>
    cases q with
    | nil => exact absurd (List.nil_prefix) ap.2
    | cons t q =>
      rw [get_slot] at ep eq
      cases hs : slot s j with
      | none => simp [hs] at ep
      | some i =>
      cases ht : slot t j with
      | none => simp [ht] at eq
      | some k =>
      simp only [hs, Option.bind_some] at ep
      simp only [ht, Option.bind_some] at eq
      cases hi : (kids j)[i]? with
      | none => simp [hi] at ep
      | some v =>
      cases hk : (kids j)[k]? with
      | none => simp [hk] at eq
      | some w =>
      simp only [hi, Option.bind_some] at ep
      simp only [hk, Option.bind_some] at eq
      obtain ⟨c, tl, hc, rfl, rs, hf, hb⟩ := rr.parts hs
      obtain ⟨c', tl', hc', e', _, hf', _⟩ := rr.parts ht
      rw [hc] at hc'
      cases hc'
      by_cases st : s = t
      · subst st
        rw [hs] at ht
        cases ht
        rw [hi] at hk
        cases hk
        have ap' : Apart p q := by
          refine ⟨fun c => ap.1 ?_, fun c => ap.2 ?_⟩
          · exact List.cons_prefix_cons.mpr ⟨rfl, c⟩
          · exact List.cons_prefix_cons.mpr ⟨rfl, c⟩
        obtain ⟨z, f, ctx, hz, rz, pm, K⟩ := rs.focus hi
        obtain ⟨x, f1, y, f2, ctx2, hx, hy, rx, ry, pm2, K2⟩ := ih rz ap' ep eq
        refine ⟨x, f1, y, f2, r :: (ctx ++ ctx2), ?_, ?_, rx, ry, ?_, ?_⟩
        · rw [hf z p hz]; exact hx
        · rw [hf z q hz]; exact hy
        · rw [List.perm_iff_count]
          intro a
          have h1 := pm.count_eq a
          have h2 := pm2.count_eq a
          simp only [List.count_append, List.count_cons] at *
          omega
        · intro h' j' f' k' g' a r1 r2
          obtain ⟨u2, pu2, ru2⟩ := K2 h' j' f' k' g' (fun y hy => a y (by simp [hy])) r1 r2
          obtain ⟨u3, pu3, ru3⟩ := K h' _ u2 (fun y hy => a y (by simp [hy])) ru2
          refine ⟨r :: u3, ?_, ?_⟩
          · rw [List.perm_iff_count]
            intro a
            have h1 := pu2.count_eq a
            have h2 := pu3.count_eq a
            simp only [List.count_append, List.count_cons] at *
            omega
          · have hl : ((kids j).modify i (put k' q)).length = (kids j).length := by simp
            have hgi : ((kids j).set i (put k' q v))[i]? = some (put k' q v) := by
              rw [List.getElem?_set_self (lt_of_get? hi)]
            rw [put_slot (v := k'), hs]
            simp only []
            rw [put_slot, slot_setKids _ _ _ hl, hs]
            simp only []
            rw [kids_setKids _ _ hl, setKids_setKids _ _ _ hl, modify_set _ hi, modify_set _ hgi, List.set_set]
            exact hb h' _ u3 (by rw [a r (by simp)]; exact hc) ru3
      · have ik : i ≠ k := by
          intro c
          subst c
          exact st (slot_inj hs ht (lt_of_get? hi))
        obtain ⟨x1, f1, x2, f2, ctx, hx1, hx2, r1, r2, pm, K⟩ := rs.focus2 ik hi hk
        obtain ⟨x, g1, c1, hx, rx, pm1, K1⟩ := r1.focus ep
        obtain ⟨y, g2, c2, hy, ry, pm2, K2⟩ := r2.focus eq
        refine ⟨x, g1, y, g2, r :: (ctx ++ (c1 ++ c2)), ?_, ?_, rx, ry, ?_, ?_⟩
        · rw [hf x1 p hx1]; exact hx
        · rw [hf' x2 q hx2]; exact hy
        · rw [List.perm_iff_count]
          intro a
          have h1 := pm.count_eq a
          have h2 := pm1.count_eq a
          have h3 := pm2.count_eq a
          simp only [List.count_append, List.count_cons] at *
          omega
        · intro h' j' f' k' g' a s1 s2
          obtain ⟨u1, pu1, ru1⟩ := K1 h' j' f' (fun y hy => a y (by simp [hy])) s1
          obtain ⟨u2, pu2, ru2⟩ := K2 h' k' g' (fun y hy => a y (by simp [hy])) s2
          obtain ⟨u3, pu3, ru3⟩ := K h' _ u1 _ u2 (fun y hy => a y (by simp [hy])) ru1 ru2
          refine ⟨r :: u3, ?_, ?_⟩
          · rw [List.perm_iff_count]
            intro a
            have h1 := pu1.count_eq a
            have h2 := pu2.count_eq a
            have h3 := pu3.count_eq a
            simp only [List.count_append, List.count_cons] at *
            omega
          · have hl : ((kids j).modify k (put k' q)).length = (kids j).length := by simp
            have hgi : ((kids j).set k (put k' q w))[i]? = some v := by
              rw [List.getElem?_set_ne (Ne.symm ik)]; exact hi
            rw [put_slot (v := k'), ht]
            simp only []
            rw [put_slot, slot_setKids _ _ _ hl, hs]
            simp only []
            rw [kids_setKids _ _ hl, setKids_setKids _ _ _ hl, modify_set _ hk, modify_set _ hgi]
            exact hb h' _ u3 (by rw [a r (by simp)]; exact hc) ru3

theorem setKids_self (j : Json F) : setKids j (kids j) = j := by
  cases j <;> simp [setKids, kids, List.zip_map', Prod.eta]

theorem put_get {p : List Step} {j v : Json F} (e : part p j = some v) : put v p j = j := by
  induction p generalizing j with
  | nil => simp only [part, Option.some.injEq] at e; simp [put, e]
  | cons s p ih =>
    rw [get_slot] at e
    rw [put_slot]
    cases hs : slot s j with
    | none => rfl
    | some i =>
      simp only [hs, Option.bind_some] at e ⊢
      cases hi : (kids j)[i]? with
      | none => simp [hi] at e
      | some w =>
        simp only [hi, Option.bind_some] at e
        have : (kids j).set i w = kids j := by
          apply List.ext_getElem?
          intro n
          rw [List.getElem?_set]
          by_cases c : i = n
          · subst c; rw [if_pos rfl, if_pos (lt_of_get? hi), hi]
          · rw [if_neg c]
        rw [modify_set _ hi, ih e, this]
        exact setKids_self j

theorem get_look {vars : List (Json F)} {p : List Step} {v : Json F} (e : look vars p = some v) :
    part p (.arr vars) = some v := by
  cases p with
  | nil => simp [look] at e
  | cons s p =>
    cases s with
    | key => simp [look] at e
    | index i => simpa [part, look] using e

theorem put_store {vars : List (Json F)} {p : List Step} {v : Json F} (e : look vars p = some v) (w : Json F)
    (vars' : List (Json F)) : put w p (.arr vars') = .arr (store vars' p w) := by
  cases p with
  | nil => simp [look] at e
  | cons s p =>
    cases s with
    | key => simp [look] at e
    | index i => rfl

end Caitlyn.JsonNodes
