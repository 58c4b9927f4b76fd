import Verif.Spec.JsonMemProg
import Verif.Proofs.JsonMem

/-! # Helper lemmas: programs that build JSON values when memory may run out -/

namespace Caitlyn.JsonMem
open Caitlyn.Spec
variable {F : Type} {fails : Nat → Bool}

theorem Outcome.fail {m m' : Mem} {s n : Nat} {b : Bool} (h : Outcome fails m s n b m') :
    (b = true → m'.nodes = m.nodes + n) ∧ (b = false → m.nodes ≤ m'.nodes ∧ ∃ i, fails i = true) := by
  rcases h with ⟨rfl, _, h, _⟩ | ⟨rfl, _, _, h, _, h5, _⟩
  · exact ⟨fun _ => h, fun h => (nomatch h)⟩
  · exact ⟨fun h => (nomatch h), fun _ => ⟨h, _, h5⟩⟩

theorem attempt_cases {m m' : Mem} {b : Bool} (h : attempt fails m = (b, m')) :
    m'.nodes = m.nodes ∧ (b = false → ∃ i, fails i = true) := by
  unfold attempt at h
  cases h
  exact ⟨rfl, fun h => ⟨m.tries, by simpa using h⟩⟩

theorem copyNode_cases {j : Json F} {m m' : Mem} {b : Bool} (h : copyNode fails j m = (b, m')) :
    (b = true → m'.nodes = m.nodes + (released j + 1)) ∧ (b = false → m.nodes ≤ m'.nodes ∧ ∃ i, fails i = true) := by
  have := (node_outcome fails j m).1.fail
  rw [h, ← released_eq] at this
  exact this

theorem copyUnion_cases {j : Json F} {m m' : Mem} {b : Bool} (h : copyUnion fails j m = (b, m')) :
    (b = true → m'.nodes = m.nodes + released j) ∧ (b = false → m.nodes ≤ m'.nodes ∧ ∃ i, fails i = true) := by
  have := (union_outcome fails j m).fail
  rw [h, ← released_eq] at this
  exact this

theorem assign_cases {v : Json F} {m m' : Mem} {b : Bool} {h' : Held F} (h : JsonMem.assign fails .null v m = (b, h', m')) :
    (b = true → h' = .value v ∧ m'.nodes = m.nodes + released v) ∧
    (b = false → m.nodes + h'.nodes ≤ m'.nodes ∧ ∃ i, fails i = true) := by
  have hm : ({ m with nodes := m.nodes - released (.null : Json F) } : Mem) = m := by
    cases m; simp [released]
  unfold JsonMem.assign at h
  rw [hm] at h
  cases v with
  | str s =>
    simp only at h
    cases ha : attempt fails m with
    | mk b1 m1 =>
      have hc := attempt_cases ha
      rw [ha] at h
      cases b1
      · cases h
        exact ⟨fun h => (nomatch h), fun _ => ⟨by simp [Held.nodes, hc.1], hc.2 rfl⟩⟩
      · cases h
        exact ⟨fun _ => ⟨rfl, by simp [released, hc.1]⟩, fun h => (nomatch h)⟩
  | arr js =>
    simp only at h
    cases ha : attempt fails m with
    | mk b1 m1 =>
      have hc := attempt_cases ha
      rw [ha] at h
      cases b1
      · cases h
        exact ⟨fun h => (nomatch h), fun _ => ⟨by simp [Held.nodes, hc.1], hc.2 rfl⟩⟩
      · simp only at h
        have ho := items_outcome fails js m1
        cases hi : copyItems fails js m1 with
        | mk b2 r =>
          obtain ⟨k, m2⟩ := r
          rw [hi] at h ho
          cases h
          have hf := ho.1.fail
          simp only at ho hf
          refine ⟨fun hb => ?_, fun hb => ⟨?_, (hf.2 hb).2⟩⟩
          · rw [ho.2.1 hb, List.take_length]
            refine ⟨rfl, ?_⟩
            rw [released, releasedItems_eq, hf.1 hb, hc.1]
          · rw [Held.nodes, released, releasedItems_eq, ← hc.1]
            exact (ho.2.2 hb).2
  | obj ms =>
    simp only at h
    have ho := members_outcome fails ms m
    cases hi : copyMembers fails ms m with
    | mk b2 r =>
      obtain ⟨k, m2⟩ := r
      rw [hi] at h ho
      cases h
      have hf := ho.1.fail
      simp only at ho hf
      refine ⟨fun hb => ?_, fun hb => ⟨?_, (hf.2 hb).2⟩⟩
      · rw [ho.2.1 hb, List.take_length]
        refine ⟨rfl, ?_⟩
        rw [released, releasedMembers_eq, hf.1 hb]
      · rw [Held.nodes, released, releasedMembers_eq]
        exact (ho.2.2 hb).2
  | _ =>
    cases h
    exact ⟨fun _ => ⟨rfl, by simp [released]⟩, fun h => (nomatch h)⟩

theorem releasedMembers_append (a b : List (Str × Json F)) :
    releasedMembers (a ++ b) = releasedMembers a + releasedMembers b := by
  induction a with
  | nil => simp [releasedMembers]
  | cons x a ih => obtain ⟨k, j⟩ := x; simp only [List.cons_append, releasedMembers, ih]; omega

theorem releasedItems_append (a b : List (Json F)) : releasedItems (a ++ b) = releasedItems a + releasedItems b := by
  induction a with
  | nil => simp [releasedItems]
  | cons x a ih => simp only [List.cons_append, releasedItems, ih]; omega

theorem released_setMember (key : Str) (v w : Json F) : ∀ ms : List (Str × Json F), Json.findMember key ms = some w →
    releasedMembers (Json.setMember key v ms) + released w = releasedMembers ms + released v
  | [], h => by simp [Json.findMember] at h
  | (k, x) :: ms, h => by
    rw [Json.findMember] at h
    rw [Json.setMember]
    split
    · rename_i hk
      rw [if_pos hk] at h
      cases h
      simp only [releasedMembers]; omega
    · rename_i hk
      rw [if_neg hk] at h
      have := released_setMember key v w ms h
      simp only [releasedMembers]; omega

theorem findMember_none {key : Str} : ∀ {ms : List (Str × Json F)}, Json.findMember key ms = none ↔
    key ∉ ms.map Prod.fst
  | [] => by simp [Json.findMember]
  | (k, x) :: ms => by
    rw [Json.findMember]
    split
    · rename_i hk; simp [hk]
    · rename_i hk
      rw [findMember_none (ms := ms)]
      simp [Ne.symm hk]

theorem findMember_append (key : Str) (v : Json F) : ∀ ms : List (Str × Json F), Json.findMember key ms = none →
    Json.findMember key (ms ++ [(key, v)]) = some v ∧ ∀ w, Json.setMember key w (ms ++ [(key, v)]) = Json.setMember key w ms
  | [], _ => by simp [Json.findMember, Json.setMember]
  | (k, x) :: ms, h => by
    rw [Json.findMember] at h
    by_cases hk : k = key
    · rw [if_pos hk] at h; cases h
    · rw [if_neg hk] at h
      obtain ⟨h1, h2⟩ := findMember_append key v ms h
      simp only [List.cons_append, Json.findMember, Json.setMember, if_neg hk]
      exact ⟨h1, fun w => by rw [h2]⟩

/-- Accounting: no node that belongs to something else is released. -/
def Acc (r : Except Halt (Bool × Held F × Mem)) (h : Held F) (m : Mem) : Prop :=
  ∀ b h' m' K, r = .ok (b, h', m') → h.nodes + K ≤ m.nodes → h'.nodes + K ≤ m'.nodes

/-- The result is what it should be if no exception is thrown. -/
def Right (fails : Nat → Bool) (r : Except Halt (Bool × Held F × Mem)) (j j' : Json F) (m : Mem) : Prop :=
  (∀ e, r = .error e → ∃ i, fails i = true) ∧
  ∀ b h' m', r = .ok (b, h', m') → released j ≤ m.nodes → (b = false → ∃ i, fails i = true) ∧
    (b = true → h' = .value j' ∧ m'.nodes + released j = m.nodes + released j')

theorem destroy_acc {h : Held F} {m m' : Mem} (hd : destroy h m = .ok m') : m'.nodes = m.nodes - h.nodes := by
  unfold destroy at hd
  split at hd
  · cases hd; rfl
  · cases hd
  · cases hd; simp [Held.nodes]

theorem destroy_value (j : Json F) (m : Mem) : destroy (.value j) m = .ok (m.release (released j)) := rfl

theorem setScalar_acc (v : Scalar F) (h : Held F) (m : Mem) : Acc (setScalar v h m) h m := by
  intro b h' m' K he hK
  unfold setScalar at he
  cases hd : destroy h m with
  | error e => rw [hd] at he; cases he
  | ok m1 =>
    rw [hd] at he
    cases he
    have := destroy_acc hd
    have : (Held.value v.json : Held F).nodes = 0 := by cases v <;> simp [Scalar.json, Held.nodes, released]
    omega

theorem scalar_released (v : Scalar F) : released v.json = 0 := by cases v <;> simp [Scalar.json, released]

theorem setScalar_right (v : Scalar F) (j : Json F) (m : Mem) : Right fails (setScalar v (.value j) m) j v.json m := by
  refine ⟨fun e he => (by cases he), fun b h' m' he hr => ?_⟩
  cases he
  exact ⟨fun h => (nomatch h), fun _ => ⟨rfl, by rw [scalar_released]; simp [Mem.release]; omega⟩⟩

theorem setText_acc (s : Str) (h : Held F) (m : Mem) : Acc (setText fails s h m) h m := by
  intro b h' m' K he hK
  have key : ∀ {m1 : Mem} {x : Except Halt (Bool × Held F × Mem)},
      x = (match attempt fails m1 with
        | (false, m) => .ok (false, .value (.str []), m)
        | (true, m) => .ok (true, .value (.str s), m)) → x = .ok (b, h', m') → K ≤ m1.nodes → h'.nodes + K ≤ m'.nodes := by
    intro m1 x hx he hk
    subst hx
    cases ha : attempt fails m1 with
    | mk b1 m2 =>
      have hc := (attempt_cases ha).1
      rw [ha] at he
      cases b1 <;> cases he <;> simp only [Held.nodes, released] <;> omega
  unfold setText at he
  split at he
  · cases he
  · rename_i old
    cases ha : attempt fails m with
    | mk b1 m1 =>
      have hc := (attempt_cases ha).1
      rw [ha] at he
      simp only [Held.nodes, released] at hK
      cases b1 <;> cases he <;> simp only [Held.nodes, released] <;> omega
  · cases hd : destroy h m with
    | error e => rw [hd] at he; cases he
    | ok m1 =>
      rw [hd] at he
      have := destroy_acc hd
      exact key rfl he (by omega)

theorem setText_right (s : Str) (j : Json F) (m : Mem) : Right fails (setText fails s (.value j) m) j (.str s) m := by
  have key : ∀ (old : Str) (j : Json F) (m0 : Mem), m0.nodes + released j = m.nodes ∨ m.nodes < released j →
      Right fails (match attempt fails m0 with
        | (false, m) => .ok (false, .value (.str old), m)
        | (true, m) => .ok (true, .value (.str s), m)) j (.str s) m := by
    intro old j m0 hm
    cases ha : attempt fails m0 with
    | mk b1 m1 =>
      have hc := attempt_cases ha
      cases b1
      · refine ⟨fun e he => (by cases he), fun b h' m' he hr => ?_⟩
        cases he
        exact ⟨fun _ => hc.2 rfl, fun h => (nomatch h)⟩
      · refine ⟨fun e he => (by cases he), fun b h' m' he hr => ?_⟩
        cases he
        refine ⟨fun h => (nomatch h), fun _ => ⟨rfl, ?_⟩⟩
        simp only [released]
        omega
  cases j with
  | str old => exact key old _ m (.inl (by simp [released]))
  | _ =>
    exact key [] _ _ (by simp only [Mem.release]; omega)

theorem addMember_acc {key : Str} {ms : List (Str × Json F)} {m m' : Mem} {b : Bool} {h' : Held F} {K : Nat}
    (he : addMember fails key ms m = (b, h', m')) (hK : releasedMembers ms + K ≤ m.nodes) : h'.nodes + K ≤ m'.nodes := by
  unfold addMember at he
  split at he
  · cases he; simpa [Held.nodes, released] using hK
  · cases ha : attempt fails m with
    | mk b1 m1 =>
      have hc := (attempt_cases ha).1
      rw [ha] at he
      cases b1
      · cases he; simp only [Held.nodes, released]; omega
      · simp only at he
        cases ha2 : attempt fails { m1 with nodes := m1.nodes + 1 } with
        | mk b2 m2 =>
          have hc2 := (attempt_cases ha2).1
          simp only at hc2
          rw [ha2] at he
          cases b2
          · cases he; simp only [Held.nodes, released]; omega
          · cases he; simp only [Held.nodes, released, releasedMembers_append, releasedMembers]; omega

/-- What adding a member gives. -/
theorem addMember_cases {key : Str} {ms : List (Str × Json F)} {m m' : Mem} {b : Bool} {h' : Held F}
    (he : addMember fails key ms m = (b, h', m')) :
    (b = false → h' = .value (.obj ms) ∧ Json.findMember key ms = none ∧ ∃ i, fails i = true) ∧
    (b = true → h' = .value (keyed key (.obj ms)) ∧
      m'.nodes + releasedMembers ms = m.nodes + released (keyed key (.obj ms))) := by
  unfold addMember at he
  cases hf : Json.findMember key ms with
  | some w =>
    rw [hf] at he
    cases he
    have hin : key ∈ ms.map Prod.fst := by
      have := mt findMember_none.mpr (by rw [hf]; simp : Json.findMember key ms ≠ none)
      exact Classical.not_not.mp this
    refine ⟨fun h => (nomatch h), fun _ => ?_⟩
    unfold keyed membersOf
    rw [if_pos hin]
    exact ⟨rfl, by simp only [released]⟩
  | none =>
    rw [hf] at he
    simp only at he
    have hin := findMember_none.mp hf
    cases ha : attempt fails m with
    | mk b1 m1 =>
      have hc := attempt_cases ha
      rw [ha] at he
      cases b1
      · cases he
        exact ⟨fun _ => ⟨rfl, rfl, hc.2 rfl⟩, fun h => (nomatch h)⟩
      · simp only at he
        cases ha2 : attempt fails { m1 with nodes := m1.nodes + 1 } with
        | mk b2 m2 =>
          have hc2 := attempt_cases ha2
          simp only at hc2
          rw [ha2] at he
          cases b2
          · cases he
            exact ⟨fun _ => ⟨rfl, rfl, hc2.2 rfl⟩, fun h => (nomatch h)⟩
          · cases he
            refine ⟨fun h => (nomatch h), fun _ => ?_⟩
            unfold keyed membersOf
            rw [if_neg hin]
            refine ⟨rfl, ?_⟩
            simp only [released, releasedMembers_append, releasedMembers]
            omega

theorem index_acc (key : Str) (h : Held F) (m : Mem) : Acc (index fails key h m) h m := by
  intro b h' m' K he hK
  unfold index at he
  split at he
  · injection he with he
    exact addMember_acc he (by simpa [Held.nodes, released] using hK)
  · cases hd : destroy h m with
    | error e => rw [hd] at he; cases he
    | ok m1 =>
      rw [hd] at he
      injection he with he
      have := destroy_acc hd
      exact addMember_acc he (by simp only [releasedMembers]; omega)

theorem keyed_nil {key : Str} {j : Json F} (h : membersOf j = []) : keyed key j = keyed key (.obj []) := by
  unfold keyed; rw [h]; rfl

theorem index_right (key : Str) (j : Json F) (m : Mem) : Right fails (index fails key (.value j) m) j (keyed key j) m := by
  have other : ∀ j : Json F, membersOf j = [] → Right fails (.ok (addMember fails key [] (m.release (released j)))) j
      (keyed key j) m := by
    intro j hj
    refine ⟨fun e he => (by cases he), fun b h' m' he hr => ?_⟩
    injection he with he
    have := addMember_cases he
    refine ⟨fun hb => (this.1 hb).2.2, fun hb => ?_⟩
    rw [keyed_nil hj]
    refine ⟨(this.2 hb).1, ?_⟩
    have h2 := (this.2 hb).2
    simp only [releasedMembers, Mem.release] at h2
    omega
  cases j with
  | obj ms =>
    refine ⟨fun e he => (by cases he), fun b h' m' he hr => ?_⟩
    unfold index at he
    injection he with he
    have := addMember_cases he
    refine ⟨fun hb => (this.1 hb).2.2, fun hb => ⟨(this.2 hb).1, ?_⟩⟩
    have h2 := (this.2 hb).2
    simp only [released]
    omega
  | _ => exact other _ rfl

/-- After `x[key]` there is an object with the key. -/
theorem index_found {key : Str} {h h' : Held F} {m m' : Mem} (he : index fails key h m = .ok (true, h', m')) :
    ∃ ms w, h' = .value (.obj ms) ∧ Json.findMember key ms = some w := by
  have go : ∀ {ms : List (Str × Json F)} {m : Mem}, addMember fails key ms m = (true, h', m') →
      ∃ ms w, h' = .value (.obj ms) ∧ Json.findMember key ms = some w := by
    intro ms m he
    have := ((addMember_cases he).2 rfl).1
    rw [this]
    unfold keyed membersOf
    by_cases hk : key ∈ ms.map Prod.fst
    · rw [if_pos hk]
      cases hf : Json.findMember key ms with
      | none => exact absurd hk (findMember_none.mp hf)
      | some w => exact ⟨ms, w, rfl, hf⟩
    · rw [if_neg hk]
      exact ⟨_, _, rfl, (findMember_append key _ ms (findMember_none.mpr hk)).1⟩
  unfold index at he
  split at he
  · injection he with he
    exact go he
  · cases hd : destroy h m with
    | error e => rw [hd] at he; cases he
    | ok m1 =>
      rw [hd] at he
      injection he with he
      exact go he

theorem indexScalar_acc (key : Str) (v : Scalar F) (h : Held F) (m : Mem) : Acc (indexScalar fails key v h m) h m := by
  intro b h' m' K he hK
  unfold indexScalar at he
  cases hi : index fails key h m with
  | error e => rw [hi] at he; cases he
  | ok r =>
    obtain ⟨b1, h1, m1⟩ := r
    rw [hi] at he
    have ha := index_acc key h m b1 h1 m1 K hi hK
    cases b1
    · simp only [bind, Except.bind, pure, Except.pure] at he
      cases he; exact ha
    · obtain ⟨ms, w, rfl, hw⟩ := index_found hi
      simp only [bind, Except.bind, pure, Except.pure] at he
      cases he
      have := released_setMember key v.json w ms hw
      rw [scalar_released] at this
      simp only [Held.nodes, released, hw, Option.map_some, Option.getD_some, Mem.release] at ha ⊢
      omega

theorem withMember_keyed (key : Str) (v j : Json F) : withMember key v (keyed key j) = withMember key v j := by
  unfold keyed
  split
  · rfl
  · rename_i h
    unfold withMember
    show Json.obj (Json.setMember key v (membersOf j ++ [(key, .null)])) = _
    rw [(findMember_append key _ _ (findMember_none.mpr h)).2]

theorem indexScalar_right (key : Str) (v : Scalar F) (j : Json F) (m : Mem) :
    Right fails (indexScalar fails key v (.value j) m) j (withMember key v.json j) m := by
  have hr := index_right (fails := fails) key j m
  unfold indexScalar
  cases hi : index fails key (.value j) m with
  | error e => exact ⟨fun _ _ => hr.1 e hi, fun b h' m' he => by cases he⟩
  | ok r =>
    obtain ⟨b1, h1, m1⟩ := r
    cases b1
    · refine ⟨fun e he => (by cases he), fun b h' m' he hj => ?_⟩
      simp only [bind, Except.bind, pure, Except.pure] at he
      cases he
      exact ⟨fun _ => (hr.2 _ _ _ hi hj).1 rfl, fun h => (nomatch h)⟩
    · obtain ⟨ms, w, rfl, hw⟩ := index_found hi
      refine ⟨fun e he => (by cases he), fun b h' m' he hj => ?_⟩
      simp only [bind, Except.bind, pure, Except.pure] at he
      cases he
      refine ⟨fun h => (nomatch h), fun _ => ?_⟩
      obtain ⟨e1, e2⟩ := (hr.2 _ _ _ hi hj).2 rfl
      injection e1 with e1
      rw [← withMember_keyed, ← e1]
      refine ⟨rfl, ?_⟩
      have := released_setMember key v.json w ms hw
      rw [scalar_released] at this
      rw [← e1] at e2
      simp only [withMember, membersOf, released, hw, Option.map_some, Option.getD_some, Mem.release] at e2 ⊢
      have h3 := index_acc (fails := fails) key (.value j) m true _ m1 (m.nodes - released j) hi (by simp only [Held.nodes]; omega)
      simp only [Held.nodes, released] at h3
      omega

theorem addItem_cases {v : Json F} {js : List (Json F)} {m m' : Mem} {b : Bool} {h' : Held F}
    (he : addItem fails v js m = (b, h', m')) :
    (b = false → h' = .value (.arr js) ∧ m.nodes ≤ m'.nodes ∧ ∃ i, fails i = true) ∧
    (b = true → h' = .value (.arr (js ++ [v])) ∧ m'.nodes = m.nodes + (released v + 1)) := by
  unfold addItem at he
  cases hc : copyNode fails v m with
  | mk b1 m1 =>
    have h1 := copyNode_cases hc
    rw [hc] at he
    cases b1
    · cases he
      exact ⟨fun _ => ⟨rfl, h1.2 rfl⟩, fun h => (nomatch h)⟩
    · simp only at he
      have h1 := h1.1 rfl
      cases ha : attempt fails m1 with
      | mk b2 m2 =>
        have h2 := attempt_cases ha
        rw [ha] at he
        cases b2
        · cases he
          exact ⟨fun _ => ⟨rfl, by omega, h2.2 rfl⟩, fun h => (nomatch h)⟩
        · cases he
          exact ⟨fun h => (nomatch h), fun _ => ⟨rfl, by omega⟩⟩

theorem addItem_acc {v : Json F} {js : List (Json F)} {m m' : Mem} {b : Bool} {h' : Held F} {K : Nat}
    (he : addItem fails v js m = (b, h', m')) (hK : releasedItems js + K ≤ m.nodes) : h'.nodes + K ≤ m'.nodes := by
  have := addItem_cases he
  cases b
  · obtain ⟨rfl, h1, _⟩ := this.1 rfl
    simp only [Held.nodes, released]; omega
  · obtain ⟨rfl, h1⟩ := this.2 rfl
    simp only [Held.nodes, released, releasedItems_append, releasedItems]; omega

theorem appendCopied_acc (v : Json F) (h : Held F) (m : Mem) : Acc (appendCopied fails v h m) h m := by
  intro b h' m' K he hK
  unfold appendCopied at he
  split at he
  · cases he
  · injection he with he
    exact addItem_acc he (by simpa [Held.nodes, released] using hK)
  · cases hd : destroy h m with
    | error e => rw [hd] at he; cases he
    | ok m1 =>
      rw [hd] at he
      have h0 := destroy_acc hd
      simp only [bind, Except.bind, pure, Except.pure] at he
      cases ha : attempt fails m1 with
      | mk b1 m2 =>
        have h1 := (attempt_cases ha).1
        rw [ha] at he
        cases b1
        · cases he
          simp only [Held.nodes]; omega
        · injection he with he
          exact addItem_acc he (by simp only [releasedItems]; omega)

theorem append_acc (y h : Held F) (m : Mem) : Acc (append fails y h m) h m := by
  intro b h' m' K he hK
  unfold append at he
  cases y with
  | nothing c => cases he
  | value v =>
    simp only at he
    cases hc : copyUnion fails v m with
    | mk b1 m1 =>
      have h1 := copyUnion_cases hc
      rw [hc] at he
      cases b1
      · cases he
        have := (h1.2 rfl).1
        omega
      · simp only at he
        have h1 := h1.1 rfl
        cases ha : appendCopied fails v h m1 with
        | error e => rw [ha] at he; cases he
        | ok r =>
          obtain ⟨b2, h2, m2⟩ := r
          rw [ha] at he
          have := appendCopied_acc v h m1 b2 h2 m2 (K + released v) ha (by omega)
          cases he
          simp only [Mem.release]; omega

theorem appendCopied_right (v j : Json F) (m : Mem) :
    Right fails (appendCopied fails v (.value j) m) j (.arr (itemsOf j ++ [v])) m := by
  have other : ∀ j : Json F, itemsOf j = [] → Right fails (match attempt fails (m.release (released j)) with
      | (false, m) => .ok (false, .nothing .array, m)
      | (true, m) => .ok (addItem fails v [] m)) j (.arr (itemsOf j ++ [v])) m := by
    intro j hj
    cases ha : attempt fails (m.release (released j)) with
    | mk b1 m1 =>
      have h1 := attempt_cases ha
      cases b1
      · refine ⟨fun e he => (by cases he), fun b h' m' he hr => ?_⟩
        cases he
        exact ⟨fun _ => h1.2 rfl, fun h => (nomatch h)⟩
      · refine ⟨fun e he => (by cases he), fun b h' m' he hr => ?_⟩
        injection he with he
        have := addItem_cases he
        refine ⟨fun hb => (this.1 hb).2.2, fun hb => ?_⟩
        rw [hj]
        refine ⟨(this.2 hb).1, ?_⟩
        have h2 := (this.2 hb).2
        have h3 := h1.1
        simp only [Mem.release] at h3
        simp only [List.nil_append, released, releasedItems]
        omega
  cases j with
  | arr js =>
    refine ⟨fun e he => (by cases he), fun b h' m' he hr => ?_⟩
    unfold appendCopied at he
    injection he with he
    have := addItem_cases he
    refine ⟨fun hb => (this.1 hb).2.2, fun hb => ⟨(this.2 hb).1, ?_⟩⟩
    have h2 := (this.2 hb).2
    simp only [itemsOf, released, releasedItems_append, releasedItems]
    omega
  | _ => exact other _ rfl

theorem append_right (v j : Json F) (m : Mem) :
    Right fails (append fails (.value v) (.value j) m) j (.arr (itemsOf j ++ [v])) m := by
  simp only [append]
  cases hc : copyUnion fails v m with
  | mk b1 m1 =>
    have h1 := copyUnion_cases hc
    cases b1
    · refine ⟨fun e he => (by cases he), fun b h' m' he hr => ?_⟩
      cases he
      exact ⟨fun _ => (h1.2 rfl).2, fun h => (nomatch h)⟩
    · have h1 := h1.1 rfl
      have hr := appendCopied_right (fails := fails) v j m1
      have hacc := appendCopied_acc (fails := fails) v (.value j) m1
      simp only
      cases ha : appendCopied fails v (.value j) m1 with
      | error e => exact ⟨fun _ _ => hr.1 e ha, fun b h' m' he => by cases he⟩
      | ok r =>
        obtain ⟨b2, h2, m2⟩ := r
        refine ⟨fun e he => (by cases he), fun b h' m' he hj => ?_⟩
        cases he
        obtain ⟨e1, e2⟩ := hr.2 _ _ _ ha (by omega)
        refine ⟨e1, fun hb => ⟨(e2 hb).1, ?_⟩⟩
        have e3 := (e2 hb).2
        have := hacc _ _ _ (released v) ha (by simp only [Held.nodes]; omega)
        simp only [Mem.release]; omega

theorem copyTo_acc (y h : Held F) (m : Mem) : Acc (copyTo fails y h m) h m := by
  intro b h' m' K he hK
  unfold copyTo at he
  cases hd : destroy h m with
  | error e => rw [hd] at he; cases he
  | ok m1 =>
    rw [hd] at he
    have h0 := destroy_acc hd
    cases y with
    | nothing c => cases he
    | value v =>
      injection he with he
      have h1 := assign_cases he
      cases b
      · have := (h1.2 rfl).1
        omega
      · obtain ⟨rfl, h2⟩ := h1.1 rfl
        simp only [Held.nodes]; omega

theorem copyTo_right (v j : Json F) (m : Mem) : Right fails (copyTo fails (.value v) (.value j) m) j v m := by
  refine ⟨fun e he => (by cases he), fun b h' m' he hj => ?_⟩
  injection he with he
  have h1 := assign_cases he
  refine ⟨fun hb => (h1.2 hb).2, fun hb => ⟨(h1.1 hb).1, ?_⟩⟩
  have := (h1.1 hb).2
  simp only [Mem.release] at this
  omega

theorem moveTo_cases {y h h' : Held F} {m m' : Mem} {b : Bool} (he : moveTo fails y h m = .ok (b, h', m')) :
    b = true ∧ h' = y ∧ m'.nodes = m.nodes - h.nodes ∧ ∃ v, y = .value v := by
  unfold moveTo at he
  cases hd : destroy h m with
  | error e => rw [hd] at he; cases he
  | ok m1 =>
    rw [hd] at he
    have h0 := destroy_acc hd
    simp only [bind, Except.bind, pure, Except.pure] at he
    split at he
    · cases he
    · cases ha : attempt fails m1 with
      | mk b1 m2 =>
        have h1 := (attempt_cases ha).1
        rw [ha] at he
        cases b1
        · cases he
        · cases he
          exact ⟨rfl, rfl, by omega, _, rfl⟩
    · cases he
      exact ⟨rfl, rfl, h0, _, rfl⟩

theorem moveTo_error {v j : Json F} {m : Mem} {e : Halt} (he : moveTo fails (.value v) (.value j) m = .error e) :
    e = .terminated ∧ ∃ i, fails i = true := by
  unfold moveTo at he
  rw [destroy_value] at he
  simp only [bind, Except.bind, pure, Except.pure] at he
  split at he
  · rename_i h; cases h
  · cases ha : attempt fails (m.release (released j)) with
    | mk b1 m2 =>
      have h1 := (attempt_cases ha).2
      rw [ha] at he
      cases b1
      · cases he; exact ⟨rfl, h1 rfl⟩
      · cases he
  · cases he

/-! ## Variables -/

theorem total_set {vars : Vars F} {x : Nat} {h : Held F} (h' : Held F) (hx : vars[x]? = some h) :
    totalNodes (vars.set x h') + h.nodes = totalNodes vars + h'.nodes := by
  unfold totalNodes
  induction vars generalizing x with
  | nil => simp at hx
  | cons a vars ih =>
    cases x with
    | zero =>
      simp only [List.getElem?_cons_zero, Option.some.injEq] at hx
      subst hx
      simp only [List.set_cons_zero, List.map_cons, List.sum_cons]; omega
    | succ x =>
      simp only [List.getElem?_cons_succ] at hx
      have := ih hx
      simp only [List.set_cons_succ, List.map_cons, List.sum_cons]; omega

theorem on_acc {vars vars' : Vars F} {x : Nat} {m m' : Mem} {b : Bool} {f : Held F → Mem → Except Halt (Bool × Held F × Mem)}
    (hf : ∀ h m, Acc (f h m) h m) (he : on vars x m f = .ok (b, vars', m')) {K : Nat}
    (hK : totalNodes vars + K ≤ m.nodes) : totalNodes vars' + K ≤ m'.nodes := by
  unfold on at he
  split at he
  · cases he; exact hK
  · rename_i h hx
    cases hr : f h m with
    | error e => rw [hr] at he; cases he
    | ok r =>
      obtain ⟨b1, h1, m1⟩ := r
      rw [hr] at he
      cases he
      have h0 := total_set h1 hx
      have h00 : h.nodes ≤ totalNodes vars := by
        have := total_set (.nothing .null) hx
        have h1 : (Held.nothing .null : Held F).nodes = 0 := rfl
        omega
      have := hf h m _ _ _ (totalNodes vars - h.nodes + K) hr (by omega)
      omega

theorem step_acc {vars vars' : Vars F} {m m' : Mem} {b : Bool} {s : Stmt F} (he : step fails vars m s = .ok (b, vars', m'))
    {K : Nat} (hK : totalNodes vars + K ≤ m.nodes) : totalNodes vars' + K ≤ m'.nodes := by
  cases s with
  | scalar x v => exact on_acc (setScalar_acc v) he hK
  | text x s => exact on_acc (setText_acc s) he hK
  | member x key => exact on_acc (index_acc key) he hK
  | memberScalar x key v => exact on_acc (indexScalar_acc key v) he hK
  | append x y =>
    simp only [step] at he
    split at he
    · cases he; exact hK
    · exact on_acc (append_acc _) he hK
  | assign x y =>
    simp only [step] at he
    split at he
    · cases he; exact hK
    · split at he
      · cases he; exact hK
      · exact on_acc (copyTo_acc _) he hK
  | move x y =>
    simp only [step] at he
    split at he
    · cases he; exact hK
    · rename_i hy
      split at he
      · cases he; exact hK
      · rename_i hxy
        cases hr : on vars x m (moveTo fails _) with
        | error e => rw [hr] at he; cases he
        | ok r =>
          obtain ⟨b1, v1, m1⟩ := r
          rw [hr] at he
          cases he
          unfold on at hr
          split at hr
          · rename_i hx
            rw [List.getElem?_eq_none_iff] at hx
            omega
          · rename_i h hx
            cases hm : moveTo fails _ h m with
            | error e => rw [hm] at hr; cases hr
            | ok r =>
              obtain ⟨b2, h2, m2⟩ := r
              rw [hm] at hr
              cases hr
              obtain ⟨_, rfl, h3, _⟩ := moveTo_cases hm
              have e1 := total_set h2 hx
              have e2 : (vars.set x h2)[y]? = some h2 := by
                rw [List.getElem?_set_ne (by omega)]; exact hy
              have e3 := total_set (.value .null) e2
              simp only [Held.nodes, released] at e3
              simp only [Held.nodes] at e1 h3 e3 ⊢
              omega

theorem run_acc : ∀ {ss : List (Stmt F)} {vars vars' : Vars F} {m m' : Mem} {bs : List Bool},
    run fails vars m ss = .ok (bs, vars', m') → ∀ {K : Nat}, totalNodes vars + K ≤ m.nodes → totalNodes vars' + K ≤ m'.nodes
  | [], vars, vars', m, m', bs, he, K, hK => by cases he; exact hK
  | s :: ss, vars, vars', m, m', bs, he, K, hK => by
    unfold run at he
    cases hs : step fails vars m s with
    | error e => rw [hs] at he; cases he
    | ok r =>
      obtain ⟨b1, v1, m1⟩ := r
      rw [hs] at he
      simp only [bind, Except.bind] at he
      cases hr : run fails v1 m1 ss with
      | error e => rw [hr] at he; cases he
      | ok r =>
        obtain ⟨b2, v2, m2⟩ := r
        rw [hr] at he
        cases he
        exact run_acc hr (step_acc hs hK)

theorem map_value_get {js : List (Json F)} {x : Nat} : (js.map Held.value)[x]? = (js[x]?).map Held.value := by simp

theorem total_ge {vars : Vars F} {x : Nat} {h : Held F} (hx : vars[x]? = some h) : h.nodes ≤ totalNodes vars := by
  have := total_set (.nothing .null) hx
  have h1 : (Held.nothing .null : Held F).nodes = 0 := rfl
  omega

theorem modify_eq_set {α : Type} {l : List α} {x : Nat} {a : α} (f : α → α) (hx : l[x]? = some a) :
    l.modify x f = l.set x (f a) := by
  apply List.ext_getElem?
  intro i
  rw [List.getElem?_modify, List.getElem?_set]
  split
  · rename_i h
    subst h
    rw [hx]
    have := (List.getElem?_eq_some_iff.mp hx).1
    simp [this]
  · simp

theorem modify_none {α : Type} {l : List α} {x : Nat} (f : α → α) (hx : l[x]? = none) : l.modify x f = l := by
  rw [List.getElem?_eq_none_iff] at hx
  exact List.modify_eq_self hx

/-- A statement on variables that hold values. -/
def StepRight (fails : Nat → Bool) (r : Except Halt (Bool × Vars F × Mem)) (js js' : List (Json F)) (m : Mem) : Prop :=
  (∀ e, r = .error e → ∃ i, fails i = true) ∧
  ∀ b vars' m', r = .ok (b, vars', m') → totalNodes (js.map Held.value) ≤ m.nodes → (b = false → ∃ i, fails i = true) ∧
    (b = true → vars' = js'.map Held.value ∧
      m'.nodes + totalNodes (js.map Held.value) = m.nodes + totalNodes (js'.map Held.value))

theorem StepRight.same (js : List (Json F)) (m : Mem) : StepRight fails (.ok (true, js.map Held.value, m)) js js m := by
  refine ⟨fun e he => (by cases he), fun b vars' m' he _ => ?_⟩
  cases he
  exact ⟨fun h => (nomatch h), fun _ => ⟨rfl, rfl⟩⟩

theorem on_right {js : List (Json F)} {x : Nat} {m : Mem} {f : Held F → Mem → Except Halt (Bool × Held F × Mem)}
    {g : Json F → Json F} (hf : ∀ j m, Right fails (f (.value j) m) j (g j) m) :
    StepRight fails (on (js.map Held.value) x m f) js (js.modify x g) m := by
  unfold on
  rw [map_value_get]
  cases hx : js[x]? with
  | none => rw [modify_none _ hx]; exact .same js m
  | some j =>
    have hx' : (js.map Held.value)[x]? = some (.value j) := by rw [map_value_get, hx]; rfl
    have h0 := total_ge hx'
    have hr := hf j m
    simp only [Option.map_some]
    cases hr' : f (.value j) m with
    | error e => exact ⟨fun _ _ => hr.1 e hr', fun b v m' he => by cases he⟩
    | ok r =>
      obtain ⟨b1, h1, m1⟩ := r
      refine ⟨fun e he => (by cases he), fun b vars' m' he hK => ?_⟩
      cases he
      have h2 := hr.2 _ _ _ hr' (by simp only [Held.nodes] at h0; omega)
      refine ⟨h2.1, fun hb => ?_⟩
      obtain ⟨rfl, h3⟩ := h2.2 hb
      rw [modify_eq_set _ hx, List.map_set]
      refine ⟨rfl, ?_⟩
      have := total_set (.value (g j)) hx'
      simp only [Held.nodes] at this h0 ⊢
      omega

theorem step_right (js : List (Json F)) (m : Mem) (s : Stmt F) :
    StepRight fails (step fails (js.map Held.value) m s) js (built js s) m := by
  cases s with
  | scalar x v => exact on_right (setScalar_right v)
  | text x s => exact on_right (setText_right s)
  | member x key => exact on_right (index_right key)
  | memberScalar x key v => exact on_right (indexScalar_right key v)
  | append x y =>
    simp only [step, built, map_value_get]
    cases hy : js[y]? with
    | none => exact .same js m
    | some v => exact on_right (append_right v)
  | assign x y =>
    simp only [step, built, map_value_get]
    cases hy : js[y]? with
    | none => exact .same js m
    | some v =>
      simp only [Option.map_some, Option.getD_some]
      split
      · rename_i hxy
        subst hxy
        rw [modify_eq_set _ hy]
        have : js.set x v = js := by
          apply List.ext_getElem?
          intro i
          rw [List.getElem?_set]
          split
          · rename_i h
            subst h
            rw [hy, if_pos (List.getElem?_eq_some_iff.mp hy).1]
          · rfl
        rw [this]
        exact .same js m
      · exact on_right (copyTo_right v)
  | move x y =>
    simp only [step, built, map_value_get]
    cases hy : js[y]? with
    | none => exact .same js m
    | some v =>
      simp only [Option.map_some, Option.getD_some, List.length_map]
      split
      · exact .same js m
      · rename_i hxy
        have hlt : x < js.length := by omega
        have hx : js[x]? = some js[x] := List.getElem?_eq_getElem hlt
        have hx' : (js.map Held.value)[x]? = some (.value js[x]) := by rw [map_value_get, hx]; rfl
        have hy' : (js.map Held.value)[y]? = some (.value v) := by rw [map_value_get, hy]; rfl
        have h0 := total_ge hx'
        unfold on
        rw [hx']
        simp only
        cases hm : moveTo fails (.value v) (.value js[x]) m with
        | error e => exact ⟨fun _ _ => (moveTo_error hm).2, fun b vars m' he => by cases he⟩
        | ok r =>
          obtain ⟨b1, h1, m1⟩ := r
          refine ⟨fun e he => (by cases he), fun b vars' m' he hK => ?_⟩
          cases he
          obtain ⟨rfl, rfl, h3, _⟩ := moveTo_cases hm
          refine ⟨fun h => (nomatch h), fun _ => ?_⟩
          rw [modify_eq_set _ hx, List.map_set, List.map_set]
          refine ⟨rfl, ?_⟩
          have e1 := total_set (.value v) hx'
          have e2 : ((js.map Held.value).set x (.value v))[y]? = some (.value v) := by
            rw [List.getElem?_set_ne (by omega)]; exact hy'
          have e3 := total_set (.value .null) e2
          have e4 : (Held.value .null : Held F).nodes = 0 := by simp [Held.nodes, released]
          simp only
          omega

theorem run_right : ∀ (ss : List (Stmt F)) (js : List (Json F)) (m : Mem), totalNodes (js.map Held.value) ≤ m.nodes →
    (∀ e, run fails (js.map Held.value) m ss = .error e → ∃ i, fails i = true) ∧
    ∀ bs vars' m', run fails (js.map Held.value) m ss = .ok (bs, vars', m') →
      (false ∈ bs → ∃ i, fails i = true) ∧
      (false ∉ bs → vars' = (ss.foldl built js).map Held.value ∧
        m'.nodes + totalNodes (js.map Held.value) = m.nodes + totalNodes vars')
  | [], js, m, hK => by
    refine ⟨fun e he => (by cases he), fun bs vars' m' he => ?_⟩
    cases he
    exact ⟨fun h => (by cases h), fun _ => ⟨rfl, rfl⟩⟩
  | s :: ss, js, m, hK => by
    have hs := step_right (fails := fails) js m s
    unfold run
    cases h1 : step fails (js.map Held.value) m s with
    | error e => exact ⟨fun _ _ => hs.1 e h1, fun bs v m' he => by cases he⟩
    | ok r =>
      obtain ⟨b1, v1, m1⟩ := r
      have hs := hs.2 _ _ _ h1 hK
      cases b1 with
      | false =>
        refine ⟨fun _ _ => hs.1 rfl, fun bs v m' he => ?_⟩
        simp only [bind, Except.bind] at he
        split at he
        · cases he
        · cases he
          exact ⟨fun _ => hs.1 rfl, fun h => absurd List.mem_cons_self h⟩
      | true =>
        obtain ⟨rfl, h2⟩ := hs.2 rfl
        have ih := run_right ss (built js s) m1 (by omega)
        simp only [bind, Except.bind]
        cases h3 : run fails ((built js s).map Held.value) m1 ss with
        | error e => exact ⟨fun _ _ => ih.1 e h3, fun bs v m' he => by cases he⟩
        | ok r =>
          obtain ⟨bs2, v2, m2⟩ := r
          have ih := ih.2 _ _ _ h3
          refine ⟨fun e he => (by cases he), fun bs v m' he => ?_⟩
          cases he
          refine ⟨fun h => ih.1 (by simpa using h), fun h => ?_⟩
          obtain ⟨h4, h5⟩ := ih.2 (by simpa using h)
          exact ⟨h4, by simp only; omega⟩

theorem finish_values : ∀ (js : List (Json F)) (m : Mem), totalNodes (js.map Held.value) ≤ m.nodes →
    ∃ m', finish (js.map Held.value) m = .ok m' ∧ m'.nodes + totalNodes (js.map Held.value) = m.nodes
  | [], m, _ => ⟨m, rfl, by simp [totalNodes]⟩
  | j :: js, m, h => by
    have e : totalNodes ((j :: js).map Held.value) = released j + totalNodes (js.map Held.value) := by
      simp [totalNodes, Held.nodes]
    obtain ⟨m', h1, h2⟩ := finish_values js (m.release (released j)) (by simp only [Mem.release]; omega)
    refine ⟨m', h1, ?_⟩
    simp only [Mem.release] at h2
    omega

/-! ## Statements that throw -/

theorem on_kept {vars vars' : Vars F} {x : Nat} {m m' : Mem} {f : Held F → Mem → Except Halt (Bool × Held F × Mem)} {h : Held F}
    (hx : vars[x]? = some h) (hf : ∀ h' m', f h m = .ok (false, h', m') → h' = h)
    (he : on vars x m f = .ok (false, vars', m')) : vars' = vars := by
  unfold on at he
  rw [hx] at he
  simp only at he
  cases hr : f h m with
  | error e => rw [hr] at he; cases he
  | ok r =>
    obtain ⟨b1, h1, m1⟩ := r
    rw [hr] at he
    cases he
    have := hf _ _ hr
    subst this
    apply List.ext_getElem?
    intro i
    rw [List.getElem?_set]
    split
    · rename_i hi
      subst hi
      rw [hx, if_pos (List.getElem?_eq_some_iff.mp hx).1]
    · rfl

theorem step_kept {vars vars' : Vars F} {m m' : Mem} {s : Stmt F} (hs : SameType vars s)
    (he : step fails vars m s = .ok (false, vars', m')) : vars' = vars := by
  cases s with
  | scalar x v =>
    simp only [step, on] at he
    split at he
    · cases he
    · rename_i h hx
      simp only [setScalar] at he
      cases hd : destroy h m with
      | error e => rw [hd] at he; cases he
      | ok m1 => rw [hd] at he; cases he
  | text x s =>
    obtain ⟨old, hx⟩ := hs
    refine on_kept hx (fun h' m1 h => ?_) he
    simp only [setText] at h
    cases ha : attempt fails m with
    | mk b1 m1 =>
      rw [ha] at h
      cases b1 <;> cases h
      rfl
  | member x key =>
    obtain ⟨ms, hx⟩ := hs
    refine on_kept hx (fun h' m1 h => ?_) he
    injection h with h
    exact ((addMember_cases h).1 rfl).1
  | memberScalar x key v =>
    obtain ⟨ms, hx⟩ := hs
    refine on_kept hx (fun h' m1 h => ?_) he
    unfold indexScalar at h
    cases hi : index fails key (.value (.obj ms)) m with
    | error e => rw [hi] at h; cases h
    | ok r =>
      obtain ⟨b1, h1, m2⟩ := r
      rw [hi] at h
      cases b1
      · simp only [bind, Except.bind, pure, Except.pure] at h
        cases h
        injection hi with hi
        exact ((addMember_cases hi).1 rfl).1
      · obtain ⟨ms, w, rfl, hw⟩ := index_found hi
        simp only [bind, Except.bind, pure, Except.pure] at h
        cases h
  | append x y =>
    obtain ⟨js, hx⟩ := hs
    simp only [step] at he
    split at he
    · cases he
    · refine on_kept hx (fun h' m1 h => ?_) he
      rename_i hy _
      unfold append at h
      split at h
      · cases h
      · rename_i v _
        cases hc : copyUnion fails v m with
        | mk b1 m2 =>
          rw [hc] at h
          cases b1
          · cases h; rfl
          · simp only [appendCopied] at h
            cases ha : addItem fails v js m2 with
            | mk b2 r =>
              obtain ⟨h2, m3⟩ := r
              rw [ha] at h
              simp only [bind, Except.bind, pure, Except.pure] at h
              cases h
              exact ((addItem_cases ha).1 rfl).1
  | assign x y => exact hs.elim
  | move x y =>
    simp only [step] at he
    split at he
    · cases he
    · split at he
      · cases he
      · rename_i hxy
        cases hr : on vars x m (moveTo fails _) with
        | error e => rw [hr] at he; cases he
        | ok r =>
          obtain ⟨b1, v1, m1⟩ := r
          rw [hr] at he
          cases he
          unfold on at hr
          split at hr
          · cases hr
          · rename_i h hx
            cases hm : moveTo fails _ h m with
            | error e => rw [hm] at hr; cases hr
            | ok r =>
              obtain ⟨b2, h2, m2⟩ := r
              rw [hm] at hr
              cases hr
              exact absurd (moveTo_cases hm).1 (by simp)

/-! ## Variables without an array -/

/-- There is a variable of type `Array` without an array. -/
def Doomed (vars : Vars F) : Prop := ∃ x : Nat, vars[x]? = some (Held.nothing JsonClass.array)

theorem on_doomed {vars vars' : Vars F} {x : Nat} {m m' : Mem} {b : Bool} {f : Held F → Mem → Except Halt (Bool × Held F × Mem)}
    (hd : Doomed vars) (hf : ∀ b h' m', f (.nothing .array) m = .ok (b, h', m') → h' = .nothing .array)
    (he : on vars x m f = .ok (b, vars', m')) : Doomed vars' := by
  obtain ⟨z, hz⟩ := hd
  unfold on at he
  split at he
  · cases he; exact ⟨z, hz⟩
  · rename_i h hx
    cases hr : f h m with
    | error e => rw [hr] at he; cases he
    | ok r =>
      obtain ⟨b1, h1, m1⟩ := r
      rw [hr] at he
      cases he
      refine ⟨z, ?_⟩
      by_cases hxz : x = z
      · subst hxz
        rw [hz] at hx
        cases hx
        rw [hf _ _ _ hr, List.getElem?_set_self (List.getElem?_eq_some_iff.mp hz).1]
      · rw [List.getElem?_set_ne hxz]; exact hz

theorem step_doomed {vars vars' : Vars F} {m m' : Mem} {b : Bool} {s : Stmt F} (hd : Doomed vars)
    (he : step fails vars m s = .ok (b, vars', m')) : Doomed vars' := by
  cases s with
  | scalar x v => exact on_doomed hd (fun b h' m' h => by cases h) he
  | text x s => exact on_doomed hd (fun b h' m' h => by cases h) he
  | member x key => exact on_doomed hd (fun b h' m' h => by cases h) he
  | memberScalar x key v => exact on_doomed hd (fun b h' m' h => by cases h) he
  | append x y =>
    simp only [step] at he
    split at he
    · cases he; exact hd
    · refine on_doomed hd (fun b h' m' h => ?_) he
      unfold append at h
      split at h
      · cases h
      · split at h
        · cases h; rfl
        · cases h
  | assign x y =>
    simp only [step] at he
    split at he
    · cases he; exact hd
    · split at he
      · cases he; exact hd
      · exact on_doomed hd (fun b h' m' h => by cases h) he
  | move x y =>
    simp only [step] at he
    split at he
    · cases he; exact hd
    · rename_i hy
      split at he
      · cases he; exact hd
      · rename_i hxy
        cases hr : on vars x m (moveTo fails _) with
        | error e => rw [hr] at he; cases he
        | ok r =>
          obtain ⟨b1, v1, m1⟩ := r
          have h2 := on_doomed hd (fun b h' m' h => by cases h) hr
          rw [hr] at he
          cases he
          obtain ⟨z, hz⟩ := h2
          refine ⟨z, ?_⟩
          by_cases hyz : y = z
          · subst hyz
            unfold on at hr
            split at hr
            · rename_i hx
              rw [List.getElem?_eq_none_iff] at hx
              omega
            · rename_i h hx
              cases hm : moveTo fails _ h m with
              | error e => rw [hm] at hr; cases hr
              | ok r =>
                obtain ⟨b2, h2, m2⟩ := r
                rw [hm] at hr
                cases hr
                obtain ⟨_, rfl, _, v, rfl⟩ := moveTo_cases hm
                rw [List.getElem?_set_ne (by omega), hy] at hz
                cases hz
          · rw [List.getElem?_set_ne hyz]; exact hz

theorem run_doomed : ∀ {ss : List (Stmt F)} {vars vars' : Vars F} {m m' : Mem} {bs : List Bool}, Doomed vars →
    run fails vars m ss = .ok (bs, vars', m') → Doomed vars'
  | [], vars, vars', m, m', bs, hd, he => by cases he; exact hd
  | s :: ss, vars, vars', m, m', bs, hd, he => by
    unfold run at he
    cases hs : step fails vars m s with
    | error e => rw [hs] at he; cases he
    | ok r =>
      obtain ⟨b1, v1, m1⟩ := r
      rw [hs] at he
      simp only [bind, Except.bind] at he
      cases hr : run fails v1 m1 ss with
      | error e => rw [hr] at he; cases he
      | ok r =>
        obtain ⟨b2, v2, m2⟩ := r
        rw [hr] at he
        cases he
        exact run_doomed (step_doomed hd hs) hr

theorem finish_doomed : ∀ {vars : Vars F} {m m' : Mem}, Doomed vars → finish vars m ≠ .ok m'
  | [], m, m', ⟨x, hx⟩ => by simp at hx
  | h :: vars, m, m', ⟨x, hx⟩ => by
    intro he
    unfold finish at he
    cases hd : destroy h m with
    | error e => rw [hd] at he; cases he
    | ok m1 =>
      rw [hd] at he
      cases x with
      | zero =>
        simp only [List.getElem?_cons_zero, Option.some.injEq] at hx
        subst hx
        cases hd
      | succ x =>
        simp only [List.getElem?_cons_succ] at hx
        exact finish_doomed ⟨x, hx⟩ he

end Caitlyn.JsonMem
