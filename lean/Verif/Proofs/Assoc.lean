import Verif.Model.Ptr

/-! # Lemmas on named variables and the heap -/

namespace Caitlyn

def b2n (b : Bool) : Nat := if b then 1 else 0

@[simp] theorem b2n_true : b2n true = 1 := rfl
@[simp] theorem b2n_false : b2n false = 0 := rfl

namespace Vars
variable {α : Type}

/-- How many variables satisfy `p`. -/
def held (p : α → Bool) (v : Vars α) : Nat := v.countP fun e => p e.2

def Keys (v : Vars α) : Prop := (v.map Prod.fst).Nodup

theorem held_cons (p : α → Bool) (x : Nat) (a : α) (v : Vars α) : held p ((x, a) :: v) = held p v + b2n (p a) := by
  unfold held
  rw [List.countP_cons]
  rfl

theorem lookup_none {v : Vars α} {x : Nat} (h : v.lookup x = none) : x ∉ v.map Prod.fst := by
  induction v with
  | nil => simp
  | cons e t ih =>
    obtain ⟨y, s⟩ := e
    rw [List.lookup_cons] at h
    by_cases hy : x = y
    · subst hy; simp at h
    · rw [show (x == y) = false by simpa using hy] at h
      simp only [List.map_cons, List.mem_cons, not_or]
      exact ⟨hy, ih h⟩

theorem mem_of_lookup {v : Vars α} {x : Nat} {a : α} (h : v.lookup x = some a) : (x, a) ∈ v := by
  induction v with
  | nil => simp at h
  | cons e t ih =>
    obtain ⟨y, s1⟩ := e
    rw [List.lookup_cons] at h
    by_cases hy : x = y
    · subst hy
      simp only [BEq.rfl, Option.some.injEq] at h
      simp [h]
    · rw [show (x == y) = false by simpa using hy] at h
      exact List.mem_cons_of_mem _ (ih h)

theorem lookup_of_mem {v : Vars α} {x : Nat} {a : α} (hk : v.Keys) (h : (x, a) ∈ v) : v.lookup x = some a := by
  induction v with
  | nil => simp at h
  | cons e t ih =>
    obtain ⟨y, s1⟩ := e
    simp only [Keys, List.map_cons, List.nodup_cons] at hk
    rw [List.lookup_cons]
    rcases List.mem_cons.1 h with h1 | h1
    · cases h1; simp
    · have : x ≠ y := by
        rintro rfl
        exact hk.1 (List.mem_map_of_mem (f := Prod.fst) h1)
      rw [show (x == y) = false by simpa using this]
      exact ih hk.2 h1

theorem lookup_cons' (x y : Nat) (a : α) (v : Vars α) :
    List.lookup x ((y, a) :: v) = if x = y then some a else v.lookup x := by
  rw [List.lookup_cons]
  by_cases h : x = y
  · subst h; simp
  · rw [show (x == y) = false by simpa using h, if_neg h]

theorem set_cons (v : Vars α) (x y : Nat) (a b : α) :
    Vars.set ((y, b) :: v) x a = (y, if y = x then a else b) :: Vars.set v x a := by
  unfold Vars.set
  rw [List.map_cons]
  congr 1
  split <;> simp_all

theorem lookup_set (v : Vars α) (x y : Nat) (a : α) :
    List.lookup y (v.set x a) = if y = x then (v.lookup x).map (fun _ => a) else v.lookup y := by
  induction v with
  | nil => split <;> rfl
  | cons e t ih =>
    obtain ⟨z, b⟩ := e
    rw [set_cons, lookup_cons', lookup_cons', lookup_cons', ih]
    by_cases h1 : y = z
    · subst h1
      by_cases h2 : y = x
      · subst h2; simp
      · simp [h2]
    · by_cases h2 : y = x
      · subst h2; simp [h1]
      · simp [h1, h2]

theorem keys_set (v : Vars α) (x : Nat) (a : α) : (v.set x a).map Prod.fst = v.map Prod.fst := by
  unfold Vars.set
  rw [List.map_map]
  apply List.map_congr_left
  intro e _
  simp only [Function.comp]
  split <;> rename_i h <;> simp_all

theorem Keys.set {v : Vars α} (h : v.Keys) (x : Nat) (a : α) : Keys (v.set x a) := by
  unfold Keys
  rw [keys_set]
  exact h

theorem Keys.drop {v : Vars α} (h : v.Keys) (x : Nat) : Keys (v.drop x) :=
  List.Nodup.sublist (List.filter_sublist.map _) h

theorem Keys.cons {v : Vars α} (h : v.Keys) {x : Nat} (a : α) (hx : v.lookup x = none) : Keys ((x, a) :: v) := by
  simp only [Keys, List.map_cons, List.nodup_cons]
  exact ⟨lookup_none hx, h⟩

theorem set_absent {v : Vars α} {x : Nat} {a : α} (h : x ∉ v.map Prod.fst) : v.set x a = v := by
  induction v with
  | nil => rfl
  | cons e t ih =>
    simp only [List.map_cons, List.mem_cons, not_or] at h
    unfold Vars.set
    rw [List.map_cons, if_neg (fun h' => h.1 h'.symm)]
    congr 1
    exact ih h.2

theorem drop_absent {v : Vars α} {x : Nat} (h : x ∉ v.map Prod.fst) : v.drop x = v := by
  unfold drop
  rw [List.filter_eq_self]
  intro e he
  simp only [ne_eq, decide_not, Bool.not_eq_eq_eq_not, Bool.not_true, decide_eq_false_iff_not]
  intro hx
  exact h (hx ▸ List.mem_map_of_mem he)

theorem held_set {v : Vars α} (hk : v.Keys) {x : Nat} {old : α} (h : v.lookup x = some old) (p : α → Bool) (a : α) :
    held p (v.set x a) + b2n (p old) = held p v + b2n (p a) := by
  induction v with
  | nil => simp at h
  | cons e t ih =>
    obtain ⟨y, b⟩ := e
    simp only [Keys, List.map_cons, List.nodup_cons] at hk
    rw [lookup_cons'] at h
    rw [set_cons, held_cons, held_cons]
    by_cases hy : x = y
    · subst hy
      rw [if_pos rfl] at h
      injection h with h
      subst h
      rw [if_pos rfl, set_absent hk.1]
      omega
    · rw [if_neg hy] at h
      have := ih hk.2 h
      rw [if_neg (fun h' => hy h'.symm)]
      omega

theorem held_drop {v : Vars α} (hk : v.Keys) {x : Nat} {old : α} (h : v.lookup x = some old) (p : α → Bool) :
    held p (v.drop x) + b2n (p old) = held p v := by
  induction v with
  | nil => simp at h
  | cons e t ih =>
    obtain ⟨y, b⟩ := e
    simp only [Keys, List.map_cons, List.nodup_cons] at hk
    rw [lookup_cons'] at h
    rw [held_cons]
    by_cases hy : x = y
    · subst hy
      rw [if_pos rfl] at h
      injection h with h
      subst h
      have : drop ((x, b) :: t) x = t := by
        have := drop_absent hk.1
        unfold drop at this ⊢
        rw [List.filter_cons_of_neg (by simp), this]
      rw [this]
    · rw [if_neg hy] at h
      have := ih hk.2 h
      have h2 : drop ((y, b) :: t) x = (y, b) :: drop t x := by
        unfold drop
        rw [List.filter_cons_of_pos (by simpa using fun h' => hy h'.symm)]
      rw [h2, held_cons]
      omega

theorem lookup_drop (v : Vars α) (x y : Nat) : List.lookup y (v.drop x) = if y = x then none else v.lookup y := by
  induction v with
  | nil => split <;> rfl
  | cons e t ih =>
    obtain ⟨z, b⟩ := e
    by_cases hz : z = x
    · have : drop ((z, b) :: t) x = drop t x := by
        unfold drop
        rw [List.filter_cons_of_neg (by simpa using hz)]
      rw [this, ih, lookup_cons']
      by_cases h1 : y = x
      · simp [h1]
      · rw [if_neg h1, if_neg h1, if_neg (by rw [hz]; exact h1)]
    · have : drop ((z, b) :: t) x = (z, b) :: drop t x := by
        unfold drop
        rw [List.filter_cons_of_pos (by simpa using hz)]
      rw [this, lookup_cons', lookup_cons', ih]
      by_cases h1 : y = z
      · subst h1; rw [if_pos rfl, if_neg hz]; simp
      · simp [h1]

theorem held_pos {v : Vars α} {x : Nat} {a : α} (h : v.lookup x = some a) {p : α → Bool} (hp : p a = true) :
    1 ≤ held p v :=
  List.countP_pos_iff.2 ⟨_, mem_of_lookup h, hp⟩

theorem held_le (p : α → Bool) (v : Vars α) : held p v ≤ v.length := List.countP_le_length

theorem length_set (v : Vars α) (x : Nat) (a : α) : (v.set x a).length = v.length := List.length_map _

theorem length_drop (v : Vars α) (x : Nat) : (v.drop x).length ≤ v.length := List.length_filter_le _ _

theorem mem_set {v : Vars α} {x : Nat} {a : α} {e : Nat × α} (h : e ∈ v.set x a) : e = (x, a) ∨ e ∈ v := by
  obtain ⟨e', he', rfl⟩ := List.mem_map.1 h
  split
  · exact .inl rfl
  · exact .inr he'

theorem mem_drop {v : Vars α} {x : Nat} {e : Nat × α} (h : e ∈ v.drop x) : e ∈ v := (List.mem_filter.1 h).1

end Vars

namespace Heap

/-- Every object made is alive or deleted, and once. -/
def Wf (h : Heap) : Prop := ∀ id, h.live.count id + h.dead.count id = b2n (decide (id < h.next))

theorem Wf.init : Wf {} := by intro id; simp

theorem Wf.new {h : Heap} (hw : h.Wf) : h.new.1.Wf := by
  intro id
  have := hw id
  change (h.next :: h.live).count id + h.dead.count id = b2n (decide (id < h.next + 1))
  rw [List.count_cons]
  by_cases h1 : h.next = id
  · subst h1
    simp at this ⊢
    omega
  · have h2 : decide (id < h.next + 1) = decide (id < h.next) := by
      simp only [decide_eq_decide]
      omega
    rw [h2, ← this]
    simp [h1]

theorem new_count (h : Heap) (id : Nat) : h.new.1.live.count id = h.live.count id + b2n (decide (h.next = id)) := by
  simp only [Heap.new, List.count_cons]
  by_cases h1 : h.next = id <;> simp [h1]

theorem delete_some {h : Heap} {id : Nat} (hl : 1 ≤ h.live.count id) :
    h.delete (some id) = .ok { h with live := h.live.erase id, dead := id :: h.dead } := by
  rw [delete]
  simp only [List.count_pos_iff.1 hl, if_true]

theorem erase_count (l : List Nat) (id j : Nat) (hl : 1 ≤ l.count id) :
    (l.erase id).count j + b2n (decide (id = j)) = l.count j := by
  rw [List.count_erase]
  by_cases h : id = j
  · subst h; simp; omega
  · simp [h]

theorem Wf.delete {h : Heap} (hw : h.Wf) {id : Nat} (hl : 1 ≤ h.live.count id) :
    Wf { h with live := h.live.erase id, dead := id :: h.dead } := by
  intro j
  have h1 := hw j
  have h2 := erase_count h.live id j hl
  simp only [List.count_cons]
  rw [← h1, ← h2]
  by_cases h : id = j
  · subst h; simp; omega
  · simp [h]

end Heap
end Caitlyn
