import Verif.Spec.UniqueLinks
import Mathlib.Order.WellFounded
import Mathlib.Data.Fintype.EquivFin

/-! Lemmas about `UniquePtr` members of owned objects. -/

namespace Caitlyn.Links

theorem child_iff (c : Cells) (a b : Nat) : Child c a b ↔ ∃ i : Nat, ((c a).bind fun fs => fs[i]?) = some (some b) := by
  constructor
  · rintro ⟨fs, h, hb⟩
    obtain ⟨i, hi⟩ := List.mem_iff_getElem?.1 hb
    exact ⟨i, by rw [h]; exact hi⟩
  · rintro ⟨i, h⟩
    cases hc : c a with
    | none => rw [hc] at h; cases h
    | some fs => rw [hc] at h; exact ⟨fs, hc, List.mem_iff_getElem?.2 ⟨i, h⟩⟩

theorem child_get (w : World) (a b : Nat) : Child w.cells a b ↔ ∃ i, w.get (.field a i) = some (some b) :=
  child_iff _ _ _

/-! ### Reachability -/

theorem reach_congr {c c' : Cells} {r : Nat} (h : ∀ a, Reach c r a → c a = c' a) (a : Nat) (ha : Reach c r a) :
    Reach c' r a := by
  induction ha with
  | refl => exact .refl
  | tail hb hab ih => exact ih.tail (by unfold Child; rw [← h _ hb]; exact hab)

theorem reach_congr_iff {c c' : Cells} {r : Nat} (h : ∀ a, Reach c r a → c a = c' a) (a : Nat) :
    Reach c r a ↔ Reach c' r a := by
  constructor
  · exact reach_congr h a
  · intro ha
    induction ha with
    | refl => exact .refl
    | tail hb hab ih => exact ih.tail (by unfold Child; rw [h _ ih]; exact hab)

/-! ### `del` -/

/-- A finite bound of the number of living objects, counted below `n`. -/
def count (c : Cells) (n : Nat) : Nat := (List.range n).countP fun a => (c a).isSome

def erase (c : Cells) (id : Nat) : Cells := fun a => if a = id then none else c a

theorem count_erase (c : Cells) (n id : Nat) (h : (c id).isSome) (hn : id < n) :
    count (erase c id) n + 1 = count c n := by
  unfold count
  induction n with
  | zero => omega
  | succ n ih =>
    rw [List.range_succ, List.countP_append, List.countP_append]
    by_cases e : id = n
    · subst e
      have : (List.range id).countP (fun a => (erase c id a).isSome) = (List.range id).countP (fun a => (c a).isSome) := by
        apply List.countP_congr
        intro a ha
        have : a ≠ id := by have := List.mem_range.1 ha; omega
        simp [erase, this]
      rw [this]
      simp [erase, h]
    · have := ih (by omega)
      simp only [List.countP_cons, List.countP_nil]
      have e' : (erase c id n) = c n := by simp [erase, show n ≠ id from fun h => e h.symm]
      rw [e']
      omega

theorem count_le (c : Cells) (n : Nat) : count c n ≤ n := by
  unfold count
  have := List.countP_le_length (p := fun a => (c a).isSome) (l := List.range n)
  simpa using this

theorem erase_child {c : Cells} {id a b : Nat} : Child (erase c id) a b ↔ a ≠ id ∧ Child c a b := by
  unfold Child erase
  by_cases h : a = id <;> simp [h]

/-- What `del` relies on: the objects to be deleted are different, alive and owned by no member; members point to
living objects, each to its own. -/
structure Ready (c : Cells) (n : Nat) (s : List Nat) : Prop where
  nodup : s.Nodup
  alive : ∀ a ∈ s, (c a).isSome
  free : ∀ a ∈ s, ∀ b, ¬ Child c b a
  live : ∀ a b, Child c a b → (c b).isSome
  uniq : ∀ (a : Nat) (fs : List (Option Nat)) (b : Nat) (gs : List (Option Nat)) (i j t : Nat), c a = some fs → c b = some gs → fs[i]? = some (some t) → gs[j]? = some (some t) → a = b ∧ i = j
  bound : ∀ a, (c a).isSome → a < n

theorem mem_kids {fs : List (Option Nat)} {a : Nat} : a ∈ fs.reverse.filterMap (fun d => d) ↔ some a ∈ fs := by
  simp

theorem nodup_filterMap (fs : List (Option Nat))
    (h : ∀ (i j t : Nat), fs[i]? = some (some t) → fs[j]? = some (some t) → i = j) : (fs.filterMap (fun d => d)).Nodup := by
  induction fs with
  | nil => simp
  | cons d fs ih =>
    have ih := ih fun i j t hi hj => by
      have := h (i + 1) (j + 1) t (by simpa using hi) (by simpa using hj)
      omega
    cases d with
    | none => simpa using ih
    | some a =>
      rw [List.filterMap_cons_some (f := fun d : Option Nat => d) (b := a) rfl, List.nodup_cons]
      refine ⟨fun hm => ?_, ih⟩
      have : some a ∈ fs := by simpa using hm
      obtain ⟨j, hj⟩ := List.mem_iff_getElem?.1 this
      have := h 0 (j + 1) a (by simp) (by simpa using hj)
      omega

theorem nodup_kids (fs : List (Option Nat))
    (h : ∀ (i j t : Nat), fs[i]? = some (some t) → fs[j]? = some (some t) → i = j) :
    (fs.reverse.filterMap (fun d => d)).Nodup := by
  rw [List.filterMap_reverse]
  unfold List.Nodup
  rw [List.pairwise_reverse]
  exact (nodup_filterMap fs h).imp fun h => h.symm

theorem Ready.step {c : Cells} {n id : Nat} {s : List Nat} {fs : List (Option Nat)} (h : Ready c n (id :: s))
    (hc : c id = some fs) : Ready (erase c id) n (fs.reverse.filterMap (fun d => d) ++ s) := by
  have hnd := List.nodup_cons.1 h.nodup
  have hkid : ∀ a, a ∈ fs.reverse.filterMap (fun d => d) → Child c id a := fun a ha => ⟨fs, hc, mem_kids.1 ha⟩
  constructor
  · rw [List.nodup_append]
    refine ⟨nodup_kids fs fun i j t hi hj => (h.uniq id fs id fs i j t hc hc hi hj).2, hnd.2, ?_⟩
    intro a ha b hb e
    subst e
    exact h.free a (by simp [hb]) id (hkid a ha)
  · intro a ha
    have hne : a ≠ id := by
      rintro rfl
      rcases List.mem_append.1 ha with ha | ha
      · exact h.free a (by simp) a (hkid a ha)
      · exact hnd.1 ha
    have : (c a).isSome := by
      rcases List.mem_append.1 ha with ha | ha
      · exact h.live id a (hkid a ha)
      · exact h.alive a (by simp [ha])
    simpa [erase, hne] using this
  · intro a ha b hb
    obtain ⟨hne, hb⟩ := erase_child.1 hb
    rcases List.mem_append.1 ha with ha | ha
    · obtain ⟨gs, hg, hm⟩ := hb
      obtain ⟨j, hj⟩ := List.mem_iff_getElem?.1 hm
      obtain ⟨i, hi⟩ := List.mem_iff_getElem?.1 (mem_kids.1 ha)
      exact hne (h.uniq b gs id fs j i a hg hc hj hi).1
    · exact h.free a (by simp [ha]) b hb
  · intro a b hab
    have hab' := (erase_child.1 hab).2
    have hb : b ≠ id := by rintro rfl; exact h.free b (by simp) a hab'
    simpa [erase, hb] using h.live a b hab'
  · intro a gs b hs i j t ha hb hi hj
    have ha' : c a = some gs := by unfold erase at ha; split at ha; cases ha; exact ha
    have hb' : c b = some hs := by unfold erase at hb; split at hb; cases hb; exact hb
    exact h.uniq a gs b hs i j t ha' hb' hi hj
  · intro a ha
    apply h.bound
    unfold erase at ha
    split at ha
    · cases ha
    · exact ha

theorem reach_erase {c : Cells} {n id : Nat} {s : List Nat} {fs : List (Option Nat)} (h : Ready c n (id :: s))
    (hc : c id = some fs) (a : Nat) :
    (∃ r ∈ id :: s, Reach c r a) ↔
      a = id ∨ ∃ r ∈ fs.reverse.filterMap (fun d => d) ++ s, Reach (erase c id) r a := by
  constructor
  · rintro ⟨r, hr, ha⟩
    induction ha with
    | refl =>
      rcases List.mem_cons.1 hr with rfl | hr
      · exact .inl rfl
      · exact .inr ⟨r, List.mem_append.2 (.inr hr), .refl⟩
    | @tail b a hb hab ih =>
      by_cases hb' : b = id
      · subst hb'
        obtain ⟨gs, hg, hm⟩ := hab
        rw [hc] at hg
        cases hg
        exact .inr ⟨a, List.mem_append.2 (.inl (mem_kids.2 hm)), .refl⟩
      · rcases ih with rfl | ⟨r', hr', hrb⟩
        · exact absurd rfl hb'
        · exact .inr ⟨r', hr', hrb.tail (erase_child.2 ⟨hb', hab⟩)⟩
  · have up : ∀ r a, Reach (erase c id) r a → Reach c r a := fun r a hr => by
      induction hr with
      | refl => exact .refl
      | tail _ hab ih => exact ih.tail (erase_child.1 hab).2
    rintro (rfl | ⟨r, hr, ha⟩)
    · exact ⟨a, by simp, .refl⟩
    · rcases List.mem_append.1 hr with hr | hr
      · exact ⟨id, by simp, .head ⟨fs, hc, mem_kids.1 hr⟩ (up _ _ ha)⟩
      · exact ⟨r, by simp [hr], up _ _ ha⟩

open Classical in
theorem del_ok (n m : Nat) (c : Cells) (s : List Nat) (h : Ready c n s) (hm : count c n ≤ m) :
    del m c s = .ok fun a => if ∃ r ∈ s, Reach c r a then none else c a := by
  induction m generalizing c s with
  | zero =>
    cases s with
    | nil => simp [del]
    | cons id s =>
      have h1 := h.alive id (by simp)
      have := count_erase c n id h1 (h.bound _ h1)
      omega
  | succ m ih =>
    cases s with
    | nil => simp [del]
    | cons id s =>
      have h1 := h.alive id (by simp)
      obtain ⟨fs, hc⟩ := Option.isSome_iff_exists.1 h1
      have hcnt := count_erase c n id h1 (h.bound _ h1)
      have key := ih (erase c id) _ (h.step hc) (by omega)
      have e : (fun a => if a = id then none else c a) = erase c id := rfl
      rw [del, hc]
      simp only
      rw [e, key]
      congr 1
      funext a
      have hr := reach_erase h hc a
      by_cases hx : a = id
      · rw [if_pos (hr.2 (.inl hx))]
        subst hx
        simp [erase]
      · by_cases hy : ∃ r ∈ fs.reverse.filterMap (fun d => d) ++ s, Reach (erase c id) r a
        · rw [if_pos hy, if_pos (hr.2 (.inr hy))]
        · rw [if_neg hy, if_neg (fun h => (hr.1 h).elim hx hy)]
          simp [erase, hx]

theorem del_none (m : Nat) (c r : Cells) (s : List Nat) (h : del m c s = .ok r) (a : Nat) (ha : c a = none) :
    r a = none := by
  induction m generalizing c s with
  | zero => cases s <;> simp [del] at h; subst h; exact ha
  | succ m ih =>
    cases s with
    | nil => simp [del] at h; subst h; exact ha
    | cons id s =>
      rw [del] at h
      split at h
      · cases h
      · exact ih _ _ h (by simp [ha])

/-- Deleting does not look at an object it does not destroy. -/
theorem del_congr (m : Nat) (c c' r : Cells) (s : List Nat) (n : Nat) (h : del m c s = .ok r)
    (hn : (r n).isSome) (hc : ∀ a, a ≠ n → c a = c' a) :
    del m c' s = .ok fun a => if a = n then c' n else r a := by
  have base : ∀ c : Cells, (∀ a, a ≠ n → c a = c' a) → (fun a => if a = n then c' n else c a) = c' := by
    intro c hc
    funext a
    by_cases e : a = n
    · simp [e]
    · simp [e, hc a e]
  induction m generalizing c c' s with
  | zero => cases s <;> simp [del] at h ⊢; subst h; exact (base c hc).symm
  | succ m ih =>
    cases s with
    | nil => simp [del] at h ⊢; subst h; exact (base c hc).symm
    | cons id s =>
      rw [del] at h
      split at h
      · cases h
      · rename_i fs hid
        have hne : id ≠ n := by
          rintro rfl
          rw [del_none m _ r _ h id (by simp)] at hn
          cases hn
        rw [del, ← hc id hne, hid]
        simp only
        have hc2 : ∀ a, a ≠ n → (fun a => if a = id then none else c a) a = (fun a => if a = id then none else c' a) a := by
          intro a ha
          by_cases e : a = id
          · simp [e]
          · simp [e, hc a ha]
        have := ih _ (fun a => if a = id then none else c' a) _ h hc2 (by
          intro d hd
          funext a
          by_cases e : a = n
          · simp [e]
          · simp [e, hd a e])
        rw [this]
        simp [Ne.symm hne]

/-! ### Reading and writing places -/

theorem get_set_self (w : World) (l : Loc) (d : Option Nat) (h : (w.get l).isSome) : (w.set l d).get l = some d := by
  cases l with
  | var x => simp [World.set, World.get]
  | field a i =>
    simp only [World.get] at h
    cases hc : w.cells a with
    | none => rw [hc] at h; cases h
    | some fs =>
      rw [hc] at h
      have hi : i < fs.length := by simpa using h
      simp [World.set, World.get, Cells.set, hc, hi]

theorem get_set_ne (w : World) (l l' : Loc) (d : Option Nat) (h : l' ≠ l) : (w.set l d).get l' = w.get l' := by
  cases l with
  | var x =>
    cases l' with
    | var y =>
      have : y ≠ x := fun e => h (by rw [e])
      simp [World.set, World.get, this]
    | field b j => simp [World.set, World.get]
  | field a i =>
    cases l' with
    | var y => simp [World.set, World.get]
    | field b j =>
      by_cases e : b = a
      · subst e
        have hj : i ≠ j := fun e => h (by rw [e])
        cases hc : w.cells b with
        | none => simp [World.set, World.get, Cells.set, hc]
        | some fs => simp [World.set, World.get, Cells.set, hc, List.getElem?_set_ne hj]
      · simp [World.set, World.get, Cells.set, e]

theorem isSome_set (w : World) (l : Loc) (d : Option Nat) (a : Nat) :
    ((w.set l d).cells a).isSome = (w.cells a).isSome := by
  cases l with
  | var x => rfl
  | field b i =>
    by_cases e : a = b
    · subst e; simp [World.set, Cells.set]
    · simp [World.set, Cells.set, e]

theorem next_set (w : World) (l : Loc) (d : Option Nat) : (w.set l d).next = w.next := by
  cases l <;> rfl

theorem set_cells_ne (w : World) (a i : Nat) (d : Option Nat) (b : Nat) (h : b ≠ a) :
    (w.set (.field a i) d).cells b = w.cells b := by
  simp [World.set, Cells.set, h]

/-- Writing a value and later another one. -/
theorem set_set (w : World) (l : Loc) (d e : Option Nat) : (w.set l d).set l e = w.set l e := by
  cases l with
  | var x => simp only [World.set]; congr 1; funext y; by_cases h : y = x <;> simp [h]
  | field a i =>
    simp only [World.set]
    congr 1
    funext b
    by_cases h : b = a
    · subst h; cases hc : w.cells b <;> simp [Cells.set, hc]
    · simp [Cells.set, h]

/-! ### Consequences of the discipline of owners -/

/-- `Owned` without the requirement that there be an owner. -/
structure Sound (w : World) : Prop where
  live : ∀ l a, w.get l = some (some a) → (w.cells a).isSome
  uniq : ∀ l l' a, w.get l = some (some a) → w.get l' = some (some a) → l = l'
  bound : ∀ a, (w.cells a).isSome → a < w.next

theorem Owned.sound {w : World} (h : Owned w) : Sound w := ⟨h.live, h.uniq, h.bound⟩

theorem Sound.field_live {w : World} (h : Sound w) {a b : Nat} (hc : Child w.cells a b) : (w.cells b).isSome := by
  obtain ⟨i, hi⟩ := (child_get w a b).1 hc
  exact h.live _ _ hi

theorem Sound.parent {w : World} (h : Sound w) {a b t : Nat} (ha : Child w.cells a t) (hb : Child w.cells b t) : a = b := by
  obtain ⟨i, hi⟩ := (child_get w a t).1 ha
  obtain ⟨j, hj⟩ := (child_get w b t).1 hb
  have := h.uniq _ _ _ hi hj
  injection this

/-- No object owned by a variable owns itself. -/
theorem Sound.acyclic {w : World} (h : Sound w) {a : Nat} (ha : Held w a) : ¬ Owns w.cells a a := by
  obtain ⟨x, r, hx, ha⟩ := ha
  induction ha with
  | refl =>
    intro hr
    obtain ⟨b, _, hb⟩ := Relation.TransGen.tail'_iff.1 hr
    obtain ⟨i, hi⟩ := (child_get w b r).1 hb
    have := h.uniq (.var x) _ _ hx hi
    cases this
  | @tail b a hb hab ih =>
    intro hr
    obtain ⟨b', hb', hb'a⟩ := Relation.TransGen.tail'_iff.1 hr
    have : b' = b := h.parent hb'a hab
    subst this
    exact ih (Relation.TransGen.head' hab hb')

/-- A place reached from a variable. -/
def Stored (w : World) (l : Loc) : Prop :=
  (w.get l).isSome ∧ ∀ a i, l = .field a i → Held w a

/-- What the pointer at such a place points to does not own the object of which it is a member. -/
theorem Stored.not_inside {w : World} (h : Sound w) {l : Loc} (hl : Stored w l) {d : Option Nat}
    (hd : w.get l = some d) : ¬ Inside w.cells l d := by
  rintro ⟨r, a, i, rfl, rfl, hr⟩
  exact h.acyclic (hl.2 a i rfl) (.head' ((child_get w a r).2 ⟨i, hd⟩) hr)

/-! ### `delete` -/

theorem without_none (w : World) : w.without none = w := by
  unfold World.without
  have : (fun a => open Classical in if ∃ r, (none : Option Nat) = some r ∧ Reach w.cells r a then none else w.cells a) = w.cells := by
    funext a
    rw [if_neg]
    rintro ⟨r, h, _⟩
    cases h
  rw [this]

theorem without_pos {w : World} {d : Option Nat} {a : Nat} (h : ∃ r, d = some r ∧ Reach w.cells r a) :
    (w.without d).cells a = none := by
  simp only [World.without, if_pos h]

theorem without_neg {w : World} {d : Option Nat} {a : Nat} (h : ¬ ∃ r, d = some r ∧ Reach w.cells r a) :
    (w.without d).cells a = w.cells a := by
  simp only [World.without, if_neg h]

theorem World.ext' {w w' : World} (h1 : w.vars = w'.vars) (h2 : ∀ a, w.cells a = w'.cells a) (h3 : w.next = w'.next) : w = w' := by
  have h2 : w.cells = w'.cells := funext h2
  cases w; cases w'; simp_all

theorem ready_of (w : World) (hl : ∀ a i b, w.get (.field a i) = some (some b) → (w.cells b).isSome)
    (hu : ∀ a i b j t, w.get (.field a i) = some (some t) → w.get (.field b j) = some (some t) → a = b ∧ i = j)
    (hb : ∀ a, (w.cells a).isSome → a < w.next) (r : Nat) (hr : (w.cells r).isSome)
    (hf : ∀ a i, w.get (.field a i) ≠ some (some r)) : Ready w.cells w.next [r] := by
  constructor
  · simp
  · simpa using hr
  · intro a ha b hc
    have : a = r := by simpa using ha
    subst this
    obtain ⟨i, hi⟩ := (child_get w b a).1 hc
    exact hf _ _ hi
  · intro a b hc
    obtain ⟨i, hi⟩ := (child_get w a b).1 hc
    exact hl _ _ _ hi
  · intro a fs b gs i j t ha hb hi hj
    exact hu a i b j t (by simp [World.get, ha, hi]) (by simp [World.get, hb, hj])
  · exact hb

theorem delete_ok (w : World) (h : Sound w) (l : Loc) (hl : Stored w l) (d : Option Nat) (hd : w.get l = some d) :
    w.delete d = .ok (w.without d) := by
  classical
  cases d with
  | none => simp only [World.delete, Option.toList_none, del, without_none]; rfl
  | some r =>
    have hr := h.live _ _ hd
    have key : del (w.next + 1) w.cells [r] = .ok (w.without (some r)).cells := by
      cases l with
      | var x =>
        have R := ready_of w (fun a i b hb => h.live _ _ hb)
          (fun a i b j t ha hb => by have := h.uniq _ _ _ ha hb; injection this with h1 h2; exact ⟨h1, h2⟩) h.bound r hr
          (fun a i hi => by have := h.uniq _ _ _ hd hi; cases this)
        rw [del_ok w.next _ _ _ R (by have := count_le w.cells w.next; omega)]
        simp [World.without]
      | field n i =>
        have hni := hl.not_inside h hd
        let w' := w.set (.field n i) none
        have hget : ∀ l t, w'.get l = some (some t) → w.get l = some (some t) ∧ l ≠ .field n i := by
          intro l t ht
          by_cases e : l = .field n i
          · subst e
            rw [get_set_self w _ _ hl.1] at ht
            cases ht
          · rw [get_set_ne w _ _ _ e] at ht
            exact ⟨ht, e⟩
        have hsome : ∀ a, (w'.cells a).isSome = (w.cells a).isSome := isSome_set w _ _
        have R := ready_of w' (fun a j b hb => by rw [hsome]; exact h.live _ _ (hget _ _ hb).1)
          (fun a i b j t ha hb => by
            have := h.uniq _ _ _ (hget _ _ ha).1 (hget _ _ hb).1
            injection this with h1 h2
            exact ⟨h1, h2⟩)
          (fun a ha => by rw [hsome] at ha; rw [show w'.next = w.next from next_set _ _ _]; exact h.bound a ha) r (by rw [hsome]; exact hr)
          (fun a j hj => by
            have := hget _ _ hj
            exact this.2 (h.uniq _ _ _ this.1 hd))
        have hdel := del_ok w'.next (w.next + 1) w'.cells [r] R (by
          have := count_le w'.cells w'.next
          rw [show w'.next = w.next from next_set _ _ _] at this ⊢
          omega)
        have hsame : ∀ a, a ≠ n → w'.cells a = w.cells a := fun a ha => set_cells_ne w n i none a ha
        have hreach : ∀ a, Reach w.cells r a ↔ Reach w'.cells r a := by
          apply reach_congr_iff
          intro a ha
          refine (hsame a ?_).symm
          rintro rfl
          exact hni ⟨r, a, i, rfl, rfl, ha⟩
        have hnr : ¬ Reach w.cells r n := fun hc => hni ⟨r, n, i, rfl, rfl, hc⟩
        have hn : (w.cells n).isSome := by
          have := hl.1
          simp only [World.get] at this
          cases hc : w.cells n with
          | none => rw [hc] at this; cases this
          | some fs => rfl
        rw [del_congr _ _ w.cells _ _ n hdel (by
          have : ¬ ∃ r' ∈ [r], Reach w'.cells r' n := by
            rintro ⟨r', hr', hc⟩
            have : r' = r := by simpa using hr'
            subst this
            exact hnr ((hreach n).2 hc)
          simp only [this, if_false]
          rw [hsome]
          exact hn) hsame]
        congr 1
        funext a
        simp only [World.without]
        by_cases e : a = n
        · subst e
          simp [hnr]
        · simp [e, hsame a e, hreach a]
    simp only [World.delete, Option.toList_some, key]
    rfl

/-! ### Keeping the discipline -/

theorem get_without {w : World} {d : Option Nat} {l : Loc} : (w.without d).get l = some e ↔ w.get l = some e ∧ ¬ Inside w.cells l d := by
  cases l with
  | var x =>
    simp only [World.without, World.get]
    constructor
    · intro h
      refine ⟨h, ?_⟩
      rintro ⟨r, a, i, _, hc, _⟩
      cases hc
    · exact fun h => h.1
  | field a i =>
    simp only [World.without, World.get]
    by_cases hr : ∃ r, d = some r ∧ Reach w.cells r a
    · rw [if_pos hr]
      constructor
      · intro h; cases h
      · obtain ⟨r, h1, h2⟩ := hr
        rintro ⟨_, h⟩
        exact absurd ⟨r, a, i, h1, rfl, h2⟩ h
    · rw [if_neg hr]
      constructor
      · intro h
        refine ⟨h, ?_⟩
        rintro ⟨r, a', i', h1, h2, h3⟩
        cases h2
        exact hr ⟨r, h1, h3⟩
      · exact fun h => h.1

theorem isSome_without {w : World} {d : Option Nat} {a : Nat} :
    ((w.without d).cells a).isSome ↔ (w.cells a).isSome ∧ ¬ ∃ r, d = some r ∧ Reach w.cells r a := by
  simp only [World.without]
  by_cases hr : ∃ r, d = some r ∧ Reach w.cells r a
  · simp [hr]
  · simp [hr]

theorem Owned.drop {w : World} (h : Owned w) {l : Loc} (hl : Stored w l) {d : Option Nat} (hd : w.get l = some d) :
    Owned ((w.without d).set l none) := by
  have hni := hl.not_inside h.sound hd
  have hgl : ((w.without d).get l).isSome := by rw [get_without.2 ⟨hd, hni⟩]; rfl
  have hget : ∀ l' t, ((w.without d).set l none).get l' = some (some t) ↔
      l' ≠ l ∧ w.get l' = some (some t) ∧ ¬ Inside w.cells l' d := by
    intro l' t
    by_cases e : l' = l
    · subst e
      rw [get_set_self _ _ _ hgl]
      simp
    · rw [get_set_ne _ _ _ _ e, get_without]
      simp [e]
  constructor
  · intro l' a ha
    obtain ⟨hne, hg, hin⟩ := (hget l' a).1 ha
    rw [isSome_set, isSome_without]
    refine ⟨h.live _ _ hg, ?_⟩
    rintro ⟨r, rfl, hr⟩
    rcases Relation.ReflTransGen.cases_tail hr with rfl | ⟨b, hb, hba⟩
    · exact hne (h.uniq _ _ _ hg hd)
    · obtain ⟨i, hi⟩ := (child_get w b a).1 hba
      have := h.uniq _ _ _ hg hi
      subst this
      exact hin ⟨r, b, i, rfl, rfl, hb⟩
  · intro l' l'' a h1 h2
    exact h.uniq _ _ _ ((hget _ _).1 h1).2.1 ((hget _ _).1 h2).2.1
  · intro a ha
    rw [isSome_set, isSome_without] at ha
    obtain ⟨l', hl'⟩ := h.owner a ha.1
    refine ⟨l', (hget l' a).2 ⟨?_, hl', ?_⟩⟩
    · rintro rfl
      rw [hd] at hl'
      cases hl'
      exact ha.2 ⟨a, rfl, .refl⟩
    · rintro ⟨r, b, i, rfl, rfl, hr⟩
      exact ha.2 ⟨r, rfl, hr.tail ((child_get w b a).2 ⟨i, hl'⟩)⟩
  · intro a ha
    rw [isSome_set, isSome_without] at ha
    rw [next_set]
    exact h.bound a ha.1

theorem Owned.move {w : World} (h : Owned w) {p q : Loc} (hp : w.get p = some none) {d : Option Nat}
    (hq : w.get q = some d) (hne : p ≠ q) : Owned ((w.set p d).set q none) := by
  have hq' : ((w.set p d).get q).isSome := by rw [get_set_ne _ _ _ _ hne.symm, hq]; rfl
  have hget : ∀ l t, ((w.set p d).set q none).get l = some (some t) ↔
      (l = p ∧ d = some t) ∨ (l ≠ p ∧ l ≠ q ∧ w.get l = some (some t)) := by
    intro l t
    by_cases e : l = q
    · subst e
      rw [get_set_self _ _ _ hq']
      simp [hne.symm]
    · rw [get_set_ne _ _ _ _ e]
      by_cases e' : l = p
      · subst e'
        rw [get_set_self _ _ _ (by rw [hp]; rfl)]
        simp
      · rw [get_set_ne _ _ _ _ e']
        simp [e, e']
  constructor
  · intro l a ha
    rw [isSome_set, isSome_set]
    rcases (hget l a).1 ha with ⟨rfl, rfl⟩ | ⟨_, _, hg⟩
    · exact h.live _ _ hq
    · exact h.live _ _ hg
  · intro l l' a h1 h2
    rcases (hget l a).1 h1 with ⟨rfl, rfl⟩ | ⟨_, hl, hg⟩
    · rcases (hget l' a).1 h2 with ⟨rfl, _⟩ | ⟨_, hl', hg'⟩
      · rfl
      · exact absurd (h.uniq _ _ _ hg' hq) hl'
    · rcases (hget l' a).1 h2 with ⟨rfl, rfl⟩ | ⟨_, hl', hg'⟩
      · exact absurd (h.uniq _ _ _ hg hq) hl
      · exact h.uniq _ _ _ hg hg'
  · intro a ha
    rw [isSome_set, isSome_set] at ha
    obtain ⟨l, hl⟩ := h.owner a ha
    by_cases e : l = q
    · subst e
      rw [hq] at hl
      cases hl
      exact ⟨p, (hget p a).2 (.inl ⟨rfl, rfl⟩)⟩
    · refine ⟨l, (hget l a).2 (.inr ⟨?_, e, hl⟩)⟩
      rintro rfl
      rw [hp] at hl
      cases hl
  · intro a ha
    rw [isSome_set, isSome_set] at ha
    rw [next_set, next_set]
    exact h.bound a ha

theorem get_new (w : World) (hb : ∀ a, (w.cells a).isSome → a < w.next) (k : Nat) (l : Loc) (t : Nat) :
    (w.new k).get l = some (some t) ↔ w.get l = some (some t) := by
  cases l with
  | var x => rfl
  | field a i =>
    by_cases e : a = w.next
    · have : w.cells a = none := by
        cases hc : w.cells a with
        | none => rfl
        | some fs => have := hb a (by rw [hc]; rfl); omega
      simp only [World.new, World.get, e]
      subst e
      simp [this, List.getElem?_replicate]
    · simp [World.new, World.get, e]

theorem Owned.add {w : World} (h : Owned w) {l : Loc} (hl : w.get l = some none) (k : Nat) :
    Owned ((w.new k).set l (some w.next)) := by
  have hl' : ((w.new k).get l).isSome := by
    cases l with
    | var x => simp only [World.get] at hl; simp [World.get, World.new, hl]
    | field a i =>
      have : a ≠ w.next := by
        rintro rfl
        simp only [World.get] at hl
        cases hc : w.cells w.next with
        | none => rw [hc] at hl; cases hl
        | some fs => have := h.bound w.next (by rw [hc]; rfl); omega
      have e : (w.new k).get (.field a i) = w.get (.field a i) := by simp [World.get, World.new, this]
      rw [e, hl]; rfl
  have hget : ∀ l' t, ((w.new k).set l (some w.next)).get l' = some (some t) ↔
      (l' = l ∧ t = w.next) ∨ (l' ≠ l ∧ w.get l' = some (some t)) := by
    intro l' t
    by_cases e : l' = l
    · subst e
      rw [get_set_self _ _ _ hl']
      simp [eq_comm]
    · rw [get_set_ne _ _ _ _ e, get_new w h.bound]
      simp [e]
  have hs : ∀ a, (((w.new k).set l (some w.next)).cells a).isSome ↔ a = w.next ∨ (w.cells a).isSome := by
    intro a
    rw [isSome_set]
    by_cases e : a = w.next <;> simp [World.new, e]
  constructor
  · intro l' a ha
    rw [hs]
    rcases (hget l' a).1 ha with ⟨_, h1⟩ | ⟨_, h1⟩
    · exact .inl h1
    · exact .inr (h.live _ _ h1)
  · intro l1 l2 a h1 h2
    rcases (hget l1 a).1 h1 with ⟨e1, f1⟩ | ⟨_, f1⟩ <;> rcases (hget l2 a).1 h2 with ⟨e2, f2⟩ | ⟨_, f2⟩
    · rw [e1, e2]
    · have := h.bound a (h.live _ _ f2); omega
    · have := h.bound a (h.live _ _ f1); omega
    · exact h.uniq _ _ _ f1 f2
  · intro a ha
    rcases (hs a).1 ha with e | e
    · exact ⟨l, (hget l a).2 (.inl ⟨rfl, e⟩)⟩
    · obtain ⟨l', hl''⟩ := h.owner a e
      refine ⟨l', (hget l' a).2 (.inr ⟨?_, hl''⟩)⟩
      rintro rfl
      rw [hl] at hl''
      cases hl''
  · intro a ha
    rw [next_set]
    show a < w.next + 1
    rcases (hs a).1 ha with e | e
    · omega
    · have := h.bound a e; omega

theorem Owned.declare {w : World} (h : Owned w) {x : Nat} (hx : w.vars x = none) : Owned (w.set (.var x) none) := by
  have hget : ∀ l t, (w.set (.var x) none).get l = some (some t) ↔ w.get l = some (some t) := by
    intro l t
    by_cases e : l = .var x
    · subst e
      simp [World.get, World.set, hx]
    · rw [get_set_ne _ _ _ _ e]
  constructor
  · intro l a ha; exact h.live _ _ ((hget _ _).1 ha)
  · intro l l' a h1 h2; exact h.uniq _ _ _ ((hget _ _).1 h1) ((hget _ _).1 h2)
  · intro a ha
    obtain ⟨l, hl⟩ := h.owner a ha
    exact ⟨l, (hget _ _).2 hl⟩
  · exact h.bound

/-- The end of the scope of a variable. -/
def World.leave (w : World) (x : Nat) : World := { w with vars := fun y => if y = x then none else w.vars y }

theorem Owned.leave {w : World} {x : Nat} (h : Owned (w.set (.var x) none)) : Owned (w.leave x) := by
  have hget : ∀ l t, (w.leave x).get l = some (some t) ↔ (w.set (.var x) none).get l = some (some t) := by
    intro l t
    cases l with
    | var y => by_cases e : y = x <;> simp [World.get, World.set, World.leave, e]
    | field a i => rfl
  constructor
  · intro l a ha; exact h.live _ _ ((hget _ _).1 ha)
  · intro l l' a h1 h2; exact h.uniq _ _ _ ((hget _ _).1 h1) ((hget _ _).1 h2)
  · intro a ha
    obtain ⟨l, hl⟩ := h.owner a ha
    exact ⟨l, (hget _ _).2 hl⟩
  · exact h.bound

/-! ### Expressions -/

theorem Stored.var {w : World} {x : Nat} (h : (w.vars x).isSome) : Stored w (.var x) :=
  ⟨h, fun _ _ e => by cases e⟩

theorem Stored.held {w : World} {l : Loc} (hl : Stored w l) {a : Nat} (ha : w.get l = some (some a)) : Held w a := by
  cases l with
  | var x => exact ⟨x, a, ha, .refl⟩
  | field b i =>
    obtain ⟨x, r, hx, hr⟩ := hl.2 b i rfl
    exact ⟨x, r, hx, hr.tail ((child_get w b a).2 ⟨i, ha⟩)⟩

theorem walk_ok {w : World} (h : Owned w) (is : List Nat) (l : Loc) (hl : Stored w l) :
    w.walk l is = .error .runtimeError ∨ w.walk l is = .ok none ∨ ∃ l', w.walk l is = .ok (some l') ∧ Stored w l' := by
  induction is generalizing l with
  | nil => exact .inr (.inr ⟨l, rfl, hl⟩)
  | cons i is ih =>
    obtain ⟨d, hd⟩ := Option.isSome_iff_exists.1 hl.1
    have hread : w.read l = .ok d := by simp [World.read, hd]
    cases d with
    | none => left; simp only [World.walk, hread]; rfl
    | some a =>
      obtain ⟨fs, hfs⟩ := Option.isSome_iff_exists.1 (h.live _ _ hd)
      by_cases hi : i < fs.length
      · have hs : Stored w (.field a i) := by
          refine ⟨by simp [World.get, hfs, hi], fun b j e => ?_⟩
          injection e with e1 e2
          subst e1
          exact hl.held hd
        have e : w.walk l (i :: is) = w.walk (.field a i) is := by
          simp only [World.walk, hread]
          simp [Bind.bind, Except.bind, hfs, hi]
        rw [e]
        exact ih _ hs
      · right; left
        simp only [World.walk, hread]
        simp [Bind.bind, Except.bind, hfs, hi]

theorem locate_ok {w : World} (h : Owned w) (p : Place) :
    w.locate p = .ok none ∨ ∃ l, w.locate p = .ok (some l) ∧ Stored w l := by
  unfold World.locate
  split
  · rename_i hx
    rcases walk_ok h p.path (.var p.var) (Stored.var hx) with e | e | ⟨l, e, hl⟩
    · rw [e]; exact .inl rfl
    · rw [e]; exact .inl rfl
    · rw [e]; exact .inr ⟨l, rfl, hl⟩
  · exact .inl rfl

/-! ### Assignment -/

theorem set_without {w : World} {l : Loc} {d old : Option Nat} (h : ¬ Inside w.cells l old) :
    (w.set l d).without old = (w.without old).set l d := by
  cases l with
  | var x => rfl
  | field n i =>
    have hn : ∀ r, old = some r → ¬ Reach w.cells r n := fun r e hr => h ⟨r, n, i, e, rfl, hr⟩
    have hreach : ∀ r, old = some r → ∀ a, Reach w.cells r a ↔ Reach (w.set (.field n i) d).cells r a := by
      intro r hr a
      refine reach_congr_iff (fun b hb => (set_cells_ne w n i d b ?_).symm) a
      rintro rfl
      exact hn r hr hb
    refine World.ext' rfl (fun a => ?_) rfl
    have e : (∃ r, old = some r ∧ Reach (w.set (.field n i) d).cells r a) ↔ ∃ r, old = some r ∧ Reach w.cells r a :=
      exists_congr fun r => and_congr_right fun hr => (hreach r hr a).symm
    by_cases h1 : ∃ r, old = some r ∧ Reach w.cells r a
    · have ha : a ≠ n := by
        rintro rfl
        obtain ⟨r, hr, hc⟩ := h1
        exact hn r hr hc
      rw [without_pos (e.2 h1), set_cells_ne _ _ _ _ _ ha, without_pos h1]
    · rw [without_neg (fun hc => h1 (e.1 hc))]
      by_cases ha : a = n
      · subst ha
        simp only [World.set, Cells.set, if_true, without_neg h1]
      · rw [set_cells_ne _ _ _ _ _ ha, set_cells_ne _ _ _ _ _ ha, without_neg h1]

theorem inside_set {w : World} {l l' : Loc} {d old : Option Nat} (h : ¬ Inside w.cells l old) :
    Inside (w.set l d).cells l' old ↔ Inside w.cells l' old := by
  cases l with
  | var x => exact Iff.rfl
  | field n i =>
    have hn : ∀ r, old = some r → ¬ Reach w.cells r n := fun r e hr => h ⟨r, n, i, e, rfl, hr⟩
    unfold Inside
    refine exists_congr fun r => exists_congr fun a => exists_congr fun j => and_congr_right fun hr => and_congr_right fun _ => ?_
    refine (reach_congr_iff (fun b hb => (set_cells_ne w n i d b ?_).symm) a).symm
    rintro rfl
    exact hn r hr hb

theorem moveAssign_inside {w : World} (h : Owned w) {p q : Loc} (hp : Stored w p)
    {old : Option Nat} (ho : w.get p = some old) (hi : Inside w.cells q old) : w.moveAssign p q = .error .ub := by
  have hne : p ≠ q := by rintro rfl; exact hp.not_inside h.sound ho hi
  have hg : (w.without old).get q = none := by
    cases e : (w.without old).get q with
    | none => rfl
    | some d => exact absurd hi (get_without.1 e).2
  simp only [World.moveAssign, hne, ne_eq, not_false_eq_true, if_true, World.read, ho]
  show (w.delete old).bind _ = _
  rw [delete_ok w h.sound p hp old ho]
  simp [Except.bind, Bind.bind, hg]

theorem moveAssign_ok {w : World} (h : Owned w) {p q : Loc} (hp : Stored w p) (hne : p ≠ q)
    {old new : Option Nat} (ho : w.get p = some old) (hnew : w.get q = some new) (hi : ¬ Inside w.cells q old) :
    w.moveAssign p q = .ok (w.handOver p q old new) ∧ Owned (w.handOver p q old new) := by
  have hni := hp.not_inside h.sound ho
  have e : w.handOver p q old new = ((w.without old).set p new).set q none := by
    unfold World.handOver
    rw [set_without (by rw [inside_set hni]; exact hi), set_without hni]
  have hgq : (w.without old).get q = some new := get_without.2 ⟨hnew, hi⟩
  have hgp : (w.without old).get p = some old := get_without.2 ⟨ho, hni⟩
  constructor
  · rw [e]
    simp only [World.moveAssign, hne, ne_eq, not_false_eq_true, if_true, World.read, ho]
    show (w.delete old).bind _ = _
    rw [delete_ok w h.sound p hp old ho]
    simp [Except.bind, Bind.bind, hgq, World.write, hgp, get_set_ne _ _ _ _ hne.symm]
  · rw [e, ← set_set (w.without old) p none new]
    exact (h.drop hp ho).move (get_set_self _ _ _ (by rw [hgp]; rfl)) (by rw [get_set_ne _ _ _ _ hne.symm]; exact hgq) hne

theorem reset_ok {w : World} (h : Owned w) {p : Loc} (hp : Stored w p) {old : Option Nat} (ho : w.get p = some old) :
    w.reset p none = .ok ((w.without old).set p none) := by
  have hgp : (w.without old).get p = some old := get_without.2 ⟨ho, hp.not_inside h.sound ho⟩
  simp only [World.reset, World.read, ho]
  by_cases e : old = none
  · subst e
    rw [without_none]
    have : w.set p none = w := by
      cases p with
      | var x =>
        simp only [World.set]
        have : (fun y => if y = x then some none else w.vars y) = w.vars := by
          funext y
          by_cases e : y = x
          · subst e; simpa [World.get] using ho.symm
          · simp [e]
        rw [this]
      | field a i =>
        simp only [World.set]
        have : w.cells.set a i none = w.cells := by
          funext b
          by_cases e : b = a
          · subst e
            simp only [World.get] at ho
            cases hc : w.cells b with
            | none => simp [Cells.set, hc]
            | some fs =>
              rw [hc] at ho
              simp only [Option.bind_some] at ho
              obtain ⟨hi, hv⟩ := List.getElem?_eq_some_iff.1 ho
              simp only [Cells.set, hc, if_true, Option.map_some]
              congr 1
              conv => lhs; rw [← hv]
              exact List.set_getElem_self hi
          · simp [Cells.set, e]
        rw [this]
    rw [this]
    rfl
  · show (if old ≠ none then _ else _) = _
    rw [if_pos e]
    show (w.delete old).bind _ = _
    rw [delete_ok w h.sound p hp old ho]
    simp [Except.bind, World.write, hgp]

theorem Owned.sound_new {w : World} (h : Owned w) (k : Nat) : Sound (w.new k) := by
  refine ⟨fun l a ha => ?_, fun l l' a h1 h2 => ?_, fun a ha => ?_⟩
  · have := h.live l a ((get_new w h.bound k l a).1 ha)
    by_cases e : a = w.next <;> simp [World.new, e]
    simpa [e] using this
  · exact h.uniq l l' a ((get_new w h.bound k l a).1 h1) ((get_new w h.bound k l' a).1 h2)
  · show a < w.next + 1
    by_cases e : a = w.next
    · omega
    · have : (w.cells a).isSome := by simpa [World.new, e] using ha
      have := h.bound a this
      omega

theorem reach_new {w : World} (h : Owned w) (k r a : Nat) (hr : (w.cells r).isSome) :
    Reach w.cells r a ↔ Reach (w.new k).cells r a := by
  refine reach_congr_iff (fun b hb => ?_) a
  have : (w.cells b).isSome := by
    rcases Relation.ReflTransGen.cases_tail hb with rfl | ⟨c, _, hc⟩
    · exact hr
    · exact h.sound.field_live hc
  have := h.bound b this
  simp [World.new, show b ≠ w.next by omega]

theorem get_new_some {w : World} (h : Owned w) (k : Nat) {l : Loc} (hl : (w.get l).isSome) :
    (w.new k).get l = w.get l := by
  cases l with
  | var x => rfl
  | field a i =>
    have : a ≠ w.next := by
      rintro rfl
      simp only [World.get] at hl
      cases hc : w.cells w.next with
      | none => rw [hc] at hl; cases hl
      | some fs => have := h.bound w.next (by rw [hc]; rfl); omega
    simp [World.get, World.new, this]

theorem Stored.new {w : World} (h : Owned w) (k : Nat) {l : Loc} (hl : Stored w l) : Stored (w.new k) l := by
  refine ⟨by rw [get_new_some h k hl.1]; exact hl.1, fun a i e => ?_⟩
  obtain ⟨x, r, hx, hr⟩ := hl.2 a i e
  exact ⟨x, r, hx, (reach_new h k r a (h.live (.var x) r hx)).1 hr⟩

theorem without_new {w : World} (h : Owned w) (k : Nat) {d : Option Nat} (hd : ∀ r, d = some r → (w.cells r).isSome) :
    (w.new k).without d = (w.without d).new k := by
  refine World.ext' rfl (fun a => ?_) rfl
  have e : (∃ r, d = some r ∧ Reach (w.new k).cells r a) ↔ ∃ r, d = some r ∧ Reach w.cells r a :=
    exists_congr fun r => and_congr_right fun hr => (reach_new h k r a (hd r hr)).symm
  by_cases h1 : ∃ r, d = some r ∧ Reach w.cells r a
  · rw [without_pos (e.2 h1)]
    have : a ≠ w.next := by
      rintro rfl
      obtain ⟨r, hr, hc⟩ := h1
      have : (w.cells w.next).isSome := by
        rcases Relation.ReflTransGen.cases_tail hc with h1 | ⟨c, _, hc⟩
        · rw [h1]; exact hd r hr
        · exact h.sound.field_live hc
      have := h.bound _ this
      omega
    have e2 : ((w.without d).new k).cells a = (w.without d).cells a := by simp [World.new, this, World.without]
    rw [e2, without_pos h1]
  · rw [without_neg (fun hc => h1 (e.1 hc))]
    by_cases ha : a = w.next
    · subst ha; simp [World.new, World.without]
    · have e2 : ((w.without d).new k).cells a = (w.without d).cells a := by simp [World.new, ha, World.without]
      rw [e2, without_neg h1]
      simp [World.new, ha]

theorem resetNew_ok {w : World} (h : Owned w) {p : Loc} (hp : Stored w p) {old : Option Nat} (ho : w.get p = some old)
    (k : Nat) : (w.new k).reset p (some w.next) = .ok (((w.without old).new k).set p (some w.next)) := by
  have ho' : (w.new k).get p = some old := by rw [get_new_some h k hp.1]; exact ho
  have hne : old ≠ some w.next := by
    rintro rfl
    have := h.bound _ (h.live _ _ ho)
    omega
  have hp' := hp.new h k
  have hd : ∀ r, old = some r → (w.cells r).isSome := fun r e => h.live _ _ (by rw [ho, e])
  have hgp : ((w.new k).without old).get p = some old :=
    get_without.2 ⟨ho', hp'.not_inside (h.sound_new k) ho'⟩
  simp only [World.reset, World.read, ho']
  show (if old ≠ some w.next then _ else _) = _
  rw [if_pos hne]
  show ((w.new k).delete old).bind _ = _
  rw [delete_ok _ (h.sound_new k) p hp' old ho']
  rw [← without_new h k hd]
  simp [Except.bind, World.write, hgp]

theorem Owned.replace {w : World} (h : Owned w) {p : Loc} (hp : Stored w p) {old : Option Nat} (ho : w.get p = some old)
    (k : Nat) : Owned (((w.without old).new k).set p (some w.next)) := by
  have hgp : (w.without old).get p = some old := get_without.2 ⟨ho, hp.not_inside h.sound ho⟩
  have H := (h.drop hp ho).add (l := p) (get_set_self _ _ _ (by rw [hgp]; rfl)) k
  have hb : ∀ a, ((w.without old).cells a).isSome → a < w.next := fun a ha => h.bound a (isSome_without.1 ha).1
  have e : (((w.without old).set p none).new k).set p (some ((w.without old).set p none).next) =
      ((w.without old).new k).set p (some w.next) := by
    have e1 : ((w.without old).set p none).new k = ((w.without old).new k).set p none := by
      cases p with
      | var x => rfl
      | field a i =>
        have ha : a ≠ w.next := by
          rintro rfl
          simp only [World.get] at hgp
          cases hc : (w.without old).cells w.next with
          | none => rw [hc] at hgp; cases hgp
          | some fs => have := hb w.next (by rw [hc]; rfl); omega
        refine World.ext' rfl (fun b => ?_) rfl
        show (if b = w.next then _ else _) = _
        by_cases e : b = w.next
        · subst e
          rw [if_pos rfl]
          simp [World.set, Cells.set, World.new, World.without, Ne.symm ha]
        · rw [if_neg e]
          by_cases e' : b = a
          · subst e'
            have : ((w.without old).new k).cells b = (w.without old).cells b := by simp [World.new, World.without, e]
            simp [World.set, Cells.set, this]
          · rw [set_cells_ne _ _ _ _ _ e', set_cells_ne _ _ _ _ _ e']
            simp [World.new, World.without, e]
    rw [e1, set_set, next_set]
    rfl
  rw [e] at H
  exact H

theorem step_danger {w : World} (h : Owned w) {op : Op} (hd : Danger w op) : step w op = .error .ub := by
  obtain ⟨p, q, l, l', old, rfl, hp, hq, ho, hi⟩ := hd
  have hl : Stored w l := by
    rcases locate_ok h p with e | ⟨m, e, hm⟩
    · rw [hp] at e; cases e
    · rw [hp] at e; cases e; exact hm
  simp only [step, hp, hq]
  show w.moveAssign l l' = _
  exact moveAssign_inside h hl ho hi

theorem step_ok {w : World} (h : Owned w) {op : Op} (hd : ¬ Danger w op) : ∃ w', step w op = .ok w' ∧ Owned w' := by
  cases op with
  | make x k =>
    refine ⟨_, rfl, ?_⟩
    split
    · exact h
    · rename_i hx
      have hx : w.vars x = none := by simpa using hx
      have H := (h.declare hx).add (l := .var x) (by simp [World.get, World.set]) k
      have e : ((w.set (.var x) none).new k).set (.var x) (some (w.set (.var x) none).next) =
          (w.new k).set (.var x) (some w.next) := by
        rw [← set_set (w.new k) (.var x) none]
        rfl
      rw [e] at H
      exact H
  | makeEmpty x =>
    refine ⟨_, rfl, ?_⟩
    split
    · exact h
    · rename_i hx
      exact h.declare (by simpa using hx)
  | moveNew x p =>
    rcases locate_ok h p with e | ⟨l, e, hl⟩
    · exact ⟨w, by simp only [step, e]; rfl, h⟩
    · obtain ⟨d, hd⟩ := Option.isSome_iff_exists.1 hl.1
      simp only [step, e]
      show ∃ w', (if (w.vars x).isSome then _ else _) = _ ∧ _
      by_cases hx : (w.vars x).isSome
      · rw [if_pos hx]; exact ⟨w, rfl, h⟩
      · rw [if_neg hx]
        have hx' : w.vars x = none := by simpa using hx
        have hne : Loc.var x ≠ l := by
          rintro rfl
          simp only [World.get] at hd
          rw [hx'] at hd
          cases hd
        refine ⟨(w.set (.var x) d).set l none, ?_, ?_⟩
        · simp [World.read, hd, Bind.bind, Except.bind, World.write, get_set_ne _ _ _ _ hne.symm]
        · rw [← set_set w (.var x) none d]
          exact (h.declare hx').move (by simp [World.get, World.set])
            (by rw [get_set_ne _ _ _ _ hne.symm]; exact hd) hne
  | moveAssign p q =>
    rcases locate_ok h p with e | ⟨l, e, hl⟩
    · rcases locate_ok h q with e' | ⟨l', e', hl'⟩ <;> exact ⟨w, by simp only [step, e, e']; rfl, h⟩
    · rcases locate_ok h q with e' | ⟨l', e', hl'⟩
      · exact ⟨w, by simp only [step, e, e']; rfl, h⟩
      · simp only [step, e, e']
        show ∃ w', w.moveAssign l l' = _ ∧ _
        by_cases hne : l = l'
        · exact ⟨w, by simp [World.moveAssign, hne], h⟩
        · obtain ⟨old, ho⟩ := Option.isSome_iff_exists.1 hl.1
          obtain ⟨new, hn⟩ := Option.isSome_iff_exists.1 hl'.1
          exact ⟨_, moveAssign_ok h hl hne ho hn fun hi => hd ⟨p, q, l, l', old, rfl, e, e', ho, hi⟩⟩
  | reset p =>
    rcases locate_ok h p with e | ⟨l, e, hl⟩
    · exact ⟨w, by simp only [step, e]; rfl, h⟩
    · obtain ⟨old, ho⟩ := Option.isSome_iff_exists.1 hl.1
      exact ⟨_, by simp only [step, e]; exact reset_ok h hl ho, h.drop hl ho⟩
  | resetNew p k =>
    rcases locate_ok h p with e | ⟨l, e, hl⟩
    · exact ⟨w, by simp only [step, e]; rfl, h⟩
    · obtain ⟨old, ho⟩ := Option.isSome_iff_exists.1 hl.1
      exact ⟨_, by simp only [step, e]; exact resetNew_ok h hl ho k, h.replace hl ho k⟩
  | destroy x =>
    cases hx : w.vars x with
    | none => exact ⟨w, by simp [step, hx], h⟩
    | some d =>
      have hs : Stored w (.var x) := Stored.var (by rw [hx]; rfl)
      refine ⟨(w.without d).leave x, ?_, (h.drop hs hx).leave⟩
      simp only [step, hx]
      rw [delete_ok w h.sound (.var x) hs d hx]
      rfl

theorem Owned.empty : Owned {} :=
  ⟨fun l a h => (by cases l <;> cases h), fun l l' a h _ => (by cases l <;> cases h), fun a h => (by cases h),
    fun a h => (by cases h)⟩

theorem run_append (w : World) (a b : List Op) : run w (a ++ b) = (run w a).bind fun w => run w b := by
  induction a generalizing w with
  | nil => rfl
  | cons op a ih =>
    simp only [List.cons_append, run]
    cases step w op with
    | error e => rfl
    | ok w' => exact ih w'

theorem run_owned {w w' : World} (h : Owned w) (ops : List Op) (hr : run w ops = .ok w') : Owned w' := by
  induction ops generalizing w with
  | nil => cases hr; exact h
  | cons op ops ih =>
    by_cases hd : Danger w op
    · simp only [run, step_danger h hd] at hr; cases hr
    · obtain ⟨w1, h1, h2⟩ := step_ok h hd
      simp only [run, h1] at hr
      exact ih h2 hr

/-! ### Objects that nothing owns any more -/

theorem Owned.held_or_cycle {w : World} (h : Owned w) {a : Nat} (ha : (w.cells a).isSome)
    (hc : ¬ ∃ c, Owns w.cells c c ∧ Reach w.cells c a) : Held w a := by
  let S := { b : Nat // Reach w.cells b a }
  have hlive : ∀ b : S, b.1 < w.next := by
    rintro ⟨b, hb⟩
    apply h.bound
    rcases Relation.ReflTransGen.cases_head hb with rfl | ⟨c, ⟨fs, hf, _⟩, _⟩
    · exact ha
    · simp [hf]
  have : Finite S := Finite.of_injective (fun b : S => (⟨b.1, hlive b⟩ : Fin w.next)) fun x y e => by
    have := congrArg Fin.val e
    exact Subtype.ext this
  let r : S → S → Prop := fun x y => Owns w.cells x.1 y.1
  have : IsTrans S r := ⟨fun x y z h1 h2 => Relation.TransGen.trans h1 h2⟩
  have : Std.Irrefl r := ⟨fun x hx => hc ⟨x.1, hx, x.2⟩⟩
  have wf : WellFounded r := Finite.wellFounded_of_trans_of_irrefl r
  have key : ∀ b : S, Held w b.1 := by
    intro b
    induction b using wf.induction with
    | _ b ih =>
      have hb : (w.cells b.1).isSome := by
        rcases Relation.ReflTransGen.cases_head b.2 with e | ⟨c, ⟨fs, hf, _⟩, _⟩
        · rw [e]; exact ha
        · simp [hf]
      obtain ⟨l, hl⟩ := h.owner b.1 hb
      cases l with
      | var x => exact ⟨x, b.1, hl, .refl⟩
      | field n i =>
        have hn : Child w.cells n b.1 := (child_get w n b.1).2 ⟨i, hl⟩
        obtain ⟨x, q, hx, hq⟩ := ih ⟨n, b.2.head hn⟩ (.single hn)
        exact ⟨x, q, hx, hq.tail hn⟩
  exact key ⟨a, .refl⟩

theorem Owned.held_no_cycle {w : World} (h : Owned w) {a : Nat} (ha : Held w a) :
    ¬ ∃ c, Owns w.cells c c ∧ Reach w.cells c a := by
  rintro ⟨c, hc, hca⟩
  obtain ⟨x, r, hx, hr⟩ := ha
  induction hr with
  | refl =>
    rcases Relation.ReflTransGen.cases_tail hca with rfl | ⟨b, _, hb⟩
    · exact h.sound.acyclic ⟨x, _, hx, .refl⟩ hc
    · obtain ⟨i, hi⟩ := (child_get w b r).1 hb
      have := h.uniq (.var x) _ _ hx hi
      cases this
  | @tail b a hb hab ih =>
    rcases Relation.ReflTransGen.cases_tail hca with rfl | ⟨b', hb', hb'a⟩
    · exact h.sound.acyclic ⟨x, r, hx, hb.tail hab⟩ hc
    · have := h.sound.parent hb'a hab
      subst this
      exact ih hb'

theorem child_set {w : World} {l : Loc} {d : Option Nat} {a b : Nat} (h : Child (w.set l d).cells a b) :
    Child w.cells a b ∨ ∃ i, l = .field a i ∧ d = some b := by
  obtain ⟨j, hj⟩ := (child_get _ a b).1 h
  by_cases e : Loc.field a j = l
  · right
    refine ⟨j, e.symm, ?_⟩
    rw [e] at hj
    have : (w.get l).isSome := by
      subst e
      simp only [World.get] at hj ⊢
      cases hc : w.cells a with
      | none => simp [World.set, Cells.set, hc] at hj
      | some fs =>
        simp only [World.set, Cells.set, hc, if_true, Option.map_some, Option.bind_some] at hj ⊢
        obtain ⟨hi, _⟩ := List.getElem?_eq_some_iff.1 hj
        simpa using hi
    rw [get_set_self _ _ _ this] at hj
    injection hj
  · left
    rw [get_set_ne _ _ _ _ e] at hj
    exact (child_get _ a b).2 ⟨j, hj⟩

theorem child_without {w : World} {d : Option Nat} {a b : Nat} (h : Child (w.without d).cells a b) : Child w.cells a b := by
  obtain ⟨fs, hf, hb⟩ := h
  by_cases h1 : ∃ r, d = some r ∧ Reach w.cells r a
  · rw [without_pos h1] at hf; cases hf
  · rw [without_neg h1] at hf; exact ⟨fs, hf, hb⟩

theorem child_new {w : World} {k a b : Nat} (h : Child (w.new k).cells a b) : Child w.cells a b := by
  obtain ⟨fs, hf, hb⟩ := h
  by_cases e : a = w.next
  · simp only [World.new, e, if_true, Option.some.injEq] at hf
    subst hf
    simp at hb
  · exact ⟨fs, by simpa [World.new, e] using hf, hb⟩

def Acyclic (c : Cells) : Prop := ∀ a, ¬ Owns c a a

theorem Acyclic.mono {c c' : Cells} (h : Acyclic c) (hc : ∀ a b, Child c' a b → Child c a b) : Acyclic c' := by
  intro a ha
  refine h a ?_
  have : ∀ b, Relation.TransGen (Child c') a b → Relation.TransGen (Child c) a b := by
    intro b hb
    induction hb with
    | single h => exact .single (hc _ _ h)
    | tail _ h ih => exact ih.tail (hc _ _ h)
  exact this a ha

/-- A new edge closes a cycle only if its end owned its beginning. -/
theorem Acyclic.edge {c c' : Cells} (h : Acyclic c) {n m : Nat} (hc : ∀ a b, Child c' a b → Child c a b ∨ (a = n ∧ b = m))
    (hm : ¬ Reach c m n) : Acyclic c' := by
  intro a ha
  have key : ∀ b, Relation.TransGen (Child c') a b → Owns c a b ∨ (Reach c a n ∧ Reach c m b) := by
    intro b hb
    induction hb with
    | single hs =>
      rcases hc _ _ hs with hs | ⟨rfl, rfl⟩
      · exact .inl (.single hs)
      · exact .inr ⟨.refl, .refl⟩
    | tail _ hs ih =>
      rcases hc _ _ hs with hs | ⟨rfl, rfl⟩
      · rcases ih with ih | ⟨h1, h2⟩
        · exact .inl (ih.tail hs)
        · exact .inr ⟨h1, h2.tail hs⟩
      · rcases ih with ih | ⟨h1, h2⟩
        · exact .inr ⟨ih.to_reflTransGen, .refl⟩
        · exact .inr ⟨h1, .refl⟩
  rcases key a ha with h1 | ⟨h1, h2⟩
  · exact h a h1
  · exact hm (h2.trans h1)

theorem step_acyclic {w w' : World} (h : Owned w) {op : Op} (hs : step w op = .ok w') (hl : ¬ Loop w op)
    (ha : Acyclic w.cells) : Acyclic w'.cells := by
  have hd : ¬ Danger w op := fun hd => by rw [step_danger h hd] at hs; cases hs
  have hvar : ∀ (w : World) x d, (w.set (.var x) d).cells = w.cells := fun _ _ _ => rfl
  have hnull : ∀ (w : World) l a b, Child (w.set l none).cells a b → Child w.cells a b := fun w l a b hc => by
    rcases child_set hc with h | ⟨_, _, e⟩
    · exact h
    · cases e
  cases op with
  | make x k =>
    cases hs
    split
    · exact ha
    · rw [hvar]; exact ha.mono fun a b => child_new
  | makeEmpty x =>
    cases hs
    split
    · exact ha
    · exact ha
  | moveNew x p =>
    rcases locate_ok h p with e | ⟨l, e, hl⟩
    · simp only [step, e] at hs; cases hs; exact ha
    · obtain ⟨d, hd⟩ := Option.isSome_iff_exists.1 hl.1
      simp only [step, e] at hs
      change (if (w.vars x).isSome then _ else _) = _ at hs
      by_cases hx : (w.vars x).isSome
      · rw [if_pos hx] at hs; cases hs; exact ha
      · rw [if_neg hx] at hs
        have hx' : w.vars x = none := by simpa using hx
        have hne : Loc.var x ≠ l := by
          rintro rfl
          simp only [World.get] at hd
          rw [hx'] at hd
          cases hd
        simp [World.read, hd, Bind.bind, Except.bind, World.write, get_set_ne _ _ _ _ hne.symm] at hs
        subst hs
        exact ha.mono fun a b hc => hnull (w.set (.var x) d) l a b hc
  | moveAssign p q =>
    rcases locate_ok h p with e | ⟨l, e, hs'⟩
    · rcases locate_ok h q with e' | ⟨l', e', hl'⟩ <;> simp only [step, e, e'] at hs <;> cases hs <;> exact ha
    · rcases locate_ok h q with e' | ⟨l', e', hs''⟩
      · simp only [step, e, e'] at hs; cases hs; exact ha
      · simp only [step, e, e'] at hs
        change w.moveAssign l l' = _ at hs
        by_cases hne : l = l'
        · rw [World.moveAssign, if_neg (by simpa using hne)] at hs; cases hs; exact ha
        · obtain ⟨old, ho⟩ := Option.isSome_iff_exists.1 hs'.1
          obtain ⟨new, hn⟩ := Option.isSome_iff_exists.1 hs''.1
          rw [(moveAssign_ok h hs' hne ho hn fun hi => hd ⟨p, q, l, l', old, rfl, e, e', ho, hi⟩).1] at hs
          cases hs
          have hc : ∀ a b, Child (w.handOver l l' old new).cells a b →
              Child w.cells a b ∨ ∃ i, l = .field a i ∧ new = some b := fun a b hc =>
            child_set (hnull _ _ a b (child_without hc))
          have hni : ¬ Inside w.cells l new := fun hi => hl ⟨p, q, l, l', new, rfl, e, e', hn, hi⟩
          cases l with
          | var x =>
            refine ha.mono fun a b h1 => ?_
            rcases hc a b h1 with h1 | ⟨i, h1, _⟩
            · exact h1
            · cases h1
          | field n i =>
            cases new with
            | none =>
              refine ha.mono fun a b h1 => ?_
              rcases hc a b h1 with h1 | ⟨i, _, h1⟩
              · exact h1
              · cases h1
            | some m =>
              refine ha.edge (n := n) (m := m) (fun a b h1 => ?_) fun hr => hni ⟨m, n, i, rfl, rfl, hr⟩
              rcases hc a b h1 with h1 | ⟨j, h1, h2⟩
              · exact .inl h1
              · injection h1 with h1 _
                injection h2 with h2
                exact .inr ⟨h1.symm, h2.symm⟩
  | reset p =>
    rcases locate_ok h p with e | ⟨l, e, hl⟩
    · simp only [step, e] at hs; cases hs; exact ha
    · obtain ⟨old, ho⟩ := Option.isSome_iff_exists.1 hl.1
      simp only [step, e] at hs
      change w.reset l none = _ at hs
      rw [reset_ok h hl ho] at hs
      cases hs
      exact ha.mono fun a b hc => child_without (hnull _ _ a b hc)
  | resetNew p k =>
    rcases locate_ok h p with e | ⟨l, e, hl⟩
    · simp only [step, e] at hs; cases hs; exact ha
    · obtain ⟨old, ho⟩ := Option.isSome_iff_exists.1 hl.1
      simp only [step, e] at hs
      change (w.new k).reset l _ = _ at hs
      rw [resetNew_ok h hl ho k] at hs
      cases hs
      have hc : ∀ a b, Child (((w.without old).new k).set l (some w.next)).cells a b →
          Child w.cells a b ∨ ∃ i, l = .field a i ∧ some w.next = some b := fun a b hc => by
        rcases child_set hc with h1 | h1
        · exact .inl (child_without (child_new h1))
        · exact .inr h1
      cases l with
      | var x =>
        refine ha.mono fun a b h1 => ?_
        rcases hc a b h1 with h1 | ⟨i, h1, _⟩
        · exact h1
        · cases h1
      | field n i =>
        have hnx : w.cells w.next = none := by
          cases hx : w.cells w.next with
          | none => rfl
          | some fs => have := h.bound w.next (by rw [hx]; rfl); omega
        refine ha.edge (n := n) (m := w.next) (fun a b h1 => ?_) fun hr => ?_
        · rcases hc a b h1 with h1 | ⟨j, h1, h2⟩
          · exact .inl h1
          · injection h1 with h1 _
            injection h2 with h2
            exact .inr ⟨h1.symm, h2.symm⟩
        · rcases Relation.ReflTransGen.cases_head hr with e | ⟨c, ⟨fs, hf, _⟩, _⟩
          · rw [← e] at ho
            simp [World.get, hnx] at ho
          · rw [hnx] at hf; cases hf
  | destroy x =>
    cases hx : w.vars x with
    | none => simp only [step, hx] at hs; cases hs; exact ha
    | some d =>
      have hst : Stored w (.var x) := Stored.var (by rw [hx]; rfl)
      simp only [step, hx] at hs
      rw [delete_ok w h.sound (.var x) hst d hx] at hs
      cases hs
      exact ha.mono fun a b hc => child_without hc

/-! ### Objects out of reach are left alone -/

theorem Held.reach {w : World} {a b : Nat} (h : Held w a) (hr : Reach w.cells a b) : Held w b := by
  obtain ⟨x, r, hx, ha⟩ := h
  exact ⟨x, r, hx, ha.trans hr⟩

theorem frame_set {w : World} {l : Loc} {d : Option Nat} {a : Nat} (hl : Stored w l) (ha : ¬ Held w a) (w' : World)
    (hw : w'.cells a = w.cells a) : (w'.set l d).cells a = w.cells a := by
  cases l with
  | var x => exact hw
  | field n i =>
    rw [set_cells_ne _ _ _ _ _ (by rintro rfl; exact ha (hl.2 _ _ rfl))]
    exact hw

theorem frame_without {w : World} {l : Loc} {d : Option Nat} {a : Nat} (hl : Stored w l) (hd : w.get l = some d)
    (ha : ¬ Held w a) : (w.without d).cells a = w.cells a := by
  refine without_neg ?_
  rintro ⟨r, rfl, hr⟩
  exact ha ((hl.held hd).reach hr)

theorem step_frame {w w' : World} (h : Owned w) {op : Op} (hs : step w op = .ok w') {a : Nat} (hlive : (w.cells a).isSome)
    (ha : ¬ Held w a) : w'.cells a = w.cells a := by
  have hd : ¬ Danger w op := fun hd => by rw [step_danger h hd] at hs; cases hs
  have hnew : ∀ (v : World) k, v.next = w.next → (v.new k).cells a = v.cells a := by
    intro v k hv
    have := h.bound a hlive
    simp [World.new, hv, show a ≠ w.next by omega]
  cases op with
  | make x k =>
    cases hs
    split
    · rfl
    · exact hnew w k rfl
  | makeEmpty x =>
    cases hs
    split <;> rfl
  | moveNew x p =>
    rcases locate_ok h p with e | ⟨l, e, hl⟩
    · simp only [step, e] at hs; cases hs; rfl
    · obtain ⟨d, hd⟩ := Option.isSome_iff_exists.1 hl.1
      simp only [step, e] at hs
      change (if (w.vars x).isSome then _ else _) = _ at hs
      by_cases hx : (w.vars x).isSome
      · rw [if_pos hx] at hs; cases hs; rfl
      · rw [if_neg hx] at hs
        have hx' : w.vars x = none := by simpa using hx
        have hne : Loc.var x ≠ l := by
          rintro rfl
          simp only [World.get] at hd
          rw [hx'] at hd
          cases hd
        simp [World.read, hd, Bind.bind, Except.bind, World.write, get_set_ne _ _ _ _ hne.symm] at hs
        subst hs
        exact frame_set hl ha _ rfl
  | moveAssign p q =>
    rcases locate_ok h p with e | ⟨l, e, hs'⟩
    · rcases locate_ok h q with e' | ⟨l', e', hl'⟩ <;> simp only [step, e, e'] at hs <;> cases hs <;> rfl
    · rcases locate_ok h q with e' | ⟨l', e', hs''⟩
      · simp only [step, e, e'] at hs; cases hs; rfl
      · simp only [step, e, e'] at hs
        change w.moveAssign l l' = _ at hs
        by_cases hne : l = l'
        · rw [World.moveAssign, if_neg (by simpa using hne)] at hs; cases hs; rfl
        · obtain ⟨old, ho⟩ := Option.isSome_iff_exists.1 hs'.1
          obtain ⟨new, hn⟩ := Option.isSome_iff_exists.1 hs''.1
          have hi : ¬ Inside w.cells l' old := fun hi => hd ⟨p, q, l, l', old, rfl, e, e', ho, hi⟩
          rw [(moveAssign_ok h hs' hne ho hn hi).1] at hs
          cases hs
          have hni := hs'.not_inside h.sound ho
          unfold World.handOver
          rw [set_without (by rw [inside_set hni]; exact hi), set_without hni]
          exact frame_set hs'' ha _ (frame_set hs' ha _ (frame_without hs' ho ha))
  | reset p =>
    rcases locate_ok h p with e | ⟨l, e, hl⟩
    · simp only [step, e] at hs; cases hs; rfl
    · obtain ⟨old, ho⟩ := Option.isSome_iff_exists.1 hl.1
      simp only [step, e] at hs
      change w.reset l none = _ at hs
      rw [reset_ok h hl ho] at hs
      cases hs
      exact frame_set hl ha _ (frame_without hl ho ha)
  | resetNew p k =>
    rcases locate_ok h p with e | ⟨l, e, hl⟩
    · simp only [step, e] at hs; cases hs; rfl
    · obtain ⟨old, ho⟩ := Option.isSome_iff_exists.1 hl.1
      simp only [step, e] at hs
      change (w.new k).reset l _ = _ at hs
      rw [resetNew_ok h hl ho k] at hs
      cases hs
      exact frame_set hl ha _ ((hnew (w.without old) k rfl).trans (frame_without hl ho ha))
  | destroy x =>
    cases hx : w.vars x with
    | none => simp only [step, hx] at hs; cases hs; rfl
    | some d =>
      have hst : Stored w (.var x) := Stored.var (by rw [hx]; rfl)
      simp only [step, hx] at hs
      rw [delete_ok w h.sound (.var x) hst d hx] at hs
      cases hs
      exact frame_without hst hx ha

/-- An object that owns itself stays as it is, whatever is done. -/
theorem run_cycle {w w' : World} (h : Owned w) (ops : List Op) (hr : run w ops = .ok w') {c : Nat}
    (hc : Owns w.cells c c) : Owns w'.cells c c := by
  induction ops generalizing w with
  | nil => cases hr; exact hc
  | cons op ops ih =>
    by_cases hd : Danger w op
    · simp only [run, step_danger h hd] at hr; cases hr
    · obtain ⟨w1, h1, h2⟩ := step_ok h hd
      simp only [run, h1] at hr
      refine ih h2 hr ?_
      have hsame : ∀ a, Reach w.cells c a → w.cells a = w1.cells a := by
        intro a ha
        refine (step_frame h h1 ?_ fun hh => h.held_no_cycle hh ⟨c, hc, ha⟩).symm
        have : Owns w.cells c a := Relation.TransGen.trans_left hc ha
        obtain ⟨b, _, hb⟩ := Relation.TransGen.tail'_iff.1 this
        exact h.sound.field_live hb
      obtain ⟨b, hb, hbc⟩ := Relation.TransGen.tail'_iff.1 hc
      exact .tail' (reach_congr hsame b hb) (by unfold Child; rw [← hsame b hb]; exact hbc)

/-! ### How deeply destructors are nested -/

theorem path_erase {c : Cells} {n id : Nat} {s : List Nat} (h : Ready c n (id :: s)) {r k a : Nat} (hr : r ≠ id) :
    Path (erase c id) r k a ↔ Path c r k a := by
  constructor
  · intro hp
    induction hp with
    | nil => exact .nil
    | cons hc _ ih =>
      have hc' := (erase_child.1 hc).2
      exact .cons hc' (ih (by rintro rfl; exact h.free _ (by simp) _ hc'))
  · intro hp
    induction hp with
    | nil => exact .nil
    | cons hc _ ih =>
      exact .cons (erase_child.2 ⟨hr, hc⟩) (ih (by rintro rfl; exact h.free _ (by simp) _ hc))

theorem nesting_ok (n m : Nat) (c : Cells) (s : List (Nat × Nat)) (h : Ready c n (s.map Prod.fst)) (hm : count c n ≤ m) :
    ∃ d, nesting m c s = .ok d ∧ ∀ t, t ≤ d ↔ t = 0 ∨ ∃ e ∈ s, ∃ k a, Path c e.1 k a ∧ t ≤ e.2 + k := by
  induction m generalizing c s with
  | zero =>
    cases s with
    | nil => exact ⟨0, rfl, fun t => by simp⟩
    | cons e s =>
      have h1 := h.alive e.1 (by simp)
      have := count_erase c n e.1 h1 (h.bound _ h1)
      omega
  | succ m ih =>
    cases s with
    | nil => exact ⟨0, rfl, fun t => by simp⟩
    | cons e s =>
      obtain ⟨id, k⟩ := e
      have h1 := h.alive id (by simp)
      obtain ⟨fs, hc⟩ := Option.isSome_iff_exists.1 h1
      have hcnt := count_erase c n id h1 (h.bound _ h1)
      have hs := h.step hc
      have em : ((fs.reverse.filterMap (fun d => d)).map (fun b => (b, k + 1)) ++ s).map Prod.fst =
          fs.reverse.filterMap (fun d => d) ++ s.map Prod.fst := by
        rw [List.map_append, List.map_map]
        congr 1
        exact List.map_id _
      obtain ⟨d, hd, hspec⟩ := ih (erase c id) ((fs.reverse.filterMap (fun d => d)).map (fun b => (b, k + 1)) ++ s)
        (by rw [em]; exact hs) (by omega)
      refine ⟨max k d, ?_, fun t => ?_⟩
      · rw [nesting, hc]
        simp only
        rw [show (fun a => if a = id then none else c a) = erase c id from rfl, hd]
        rfl
      · have hne : ∀ r, r ∈ fs.reverse.filterMap (fun d => d) ++ s.map Prod.fst → r ≠ id := by
          rintro r hr rfl
          have := hs.alive _ hr
          simp [erase] at this
        rw [show t ≤ max k d ↔ t ≤ k ∨ t ≤ d by omega, hspec t]
        constructor
        · rintro (ht | rfl | ⟨e, he, j, a, hp, ht⟩)
          · exact .inr ⟨(id, k), by simp, 0, id, .nil, by simpa using ht⟩
          · exact .inl rfl
          · right
            rcases List.mem_append.1 he with he | he
            · obtain ⟨b, hb, rfl⟩ := List.mem_map.1 he
              refine ⟨(id, k), by simp, j + 1, a, .cons ⟨fs, hc, mem_kids.1 hb⟩ ?_, by simp only at ht ⊢; omega⟩
              exact (path_erase h (hne b (by simp only [List.mem_append]; exact .inl hb))).1 hp
            · exact ⟨e, by simp [he], j, a,
                (path_erase h (hne e.1 (List.mem_append.2 (.inr (List.mem_map.2 ⟨e, he, rfl⟩))))).1 hp, ht⟩
        · rintro (rfl | ⟨e, he, j, a, hp, ht⟩)
          · exact .inr (.inl rfl)
          · rcases List.mem_cons.1 he with rfl | he
            · cases hp with
              | nil => exact .inl (by simpa using ht)
              | @cons _ b j' _ hc' hp' =>
                obtain ⟨gs, hg, hb⟩ := hc'
                rw [hc] at hg
                cases hg
                have hk := mem_kids.2 hb
                refine .inr (.inr ⟨(b, k + 1), List.mem_append.2 (.inl (List.mem_map.2 ⟨b, hk, rfl⟩)), j', a, ?_, ?_⟩)
                · exact (path_erase h (hne b (List.mem_append.2 (.inl hk)))).2 hp'
                · simp only at ht ⊢; omega
            · exact .inr (.inr ⟨e, List.mem_append.2 (.inr he), j, a,
                (path_erase h (hne e.1 (List.mem_append.2 (.inr (List.mem_map.2 ⟨e, he, rfl⟩))))).2 hp, ht⟩)

theorem Owned.ready {w : World} (h : Owned w) {x r : Nat} (hx : w.vars x = some (some r)) : Ready w.cells w.next [r] :=
  ready_of w (fun a i b hb => h.live _ _ hb)
    (fun a i b j t ha hb => by have := h.uniq _ _ _ ha hb; injection this with h1 h2; exact ⟨h1, h2⟩) h.bound r (h.live (.var x) r hx)
    (fun a i hi => by have := h.uniq (.var x) _ _ hx hi; cases this)

end Caitlyn.Links
