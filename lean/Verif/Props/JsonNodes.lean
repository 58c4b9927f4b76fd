import Verif.Proofs.JsonStrings
import Verif.Props.JsonParse

/-! # C63: `JsonData` has value semantics and releases its nodes -/

namespace Caitlyn
open Spec JsonNodes

variable {F : Type}

theorem Inv.memory {h : Heap F} {vars : List (Json F)} (i : Inv h vars []) : Memory h vars := by
  obtain ⟨fp, r, nd, cov, _, w⟩ := i
  rw [List.append_nil] at nd
  have f := r.facts
  constructor
  · cases f.1 with
    | arr c l k => exact ⟨_, c, l, k⟩
  · refine ⟨fp, nd, fun x => ⟨r.live x, fun c => by simpa using cov x c⟩, ?_⟩
    rw [f.2, nodes]

theorem Inv.start : Inv (start : Heap F) [] [] := by
  refine ⟨[0], .arr (ids := []) (by simp [JsonNodes.start]) .nil, by simp, ?_, by simp, ?_⟩
  · intro x hx
    by_cases c : x = 0
    · simp [c]
    · simp [JsonNodes.start, c] at hx
  · intro x hx
    have : x ≠ 0 := by simp [JsonNodes.start] at hx; omega
    simp [JsonNodes.start, this]

theorem Inv.runs {ss : List (Stmt F)} {h : Heap F} {vars vars' : List (Json F)} (i : Inv h vars [])
    (m : meanings vars ss = some vars') : ∃ h', run h ss = .ok h' ∧ Inv h' vars' [] := by
  induction ss generalizing h vars with
  | nil =>
    simp only [meanings, Option.some.injEq] at m
    subst m
    exact ⟨h, rfl, i⟩
  | cons s ss ih =>
    simp only [meanings, Option.bind_eq_some_iff] at m
    obtain ⟨v1, m1, m2⟩ := m
    obtain ⟨h1, e1, i1⟩ := i.run m1
    obtain ⟨h2, e2, i2⟩ := ih i1 m2
    refine ⟨h2, ?_, i2⟩
    rw [run, List.foldlM_cons, e1]
    exact e2

/-- C63. For every program of declarations, copies, moves, assignments, `operator[]`, `Append` and ends of scopes, in
any order and on any places, except assignments between a value and a proper part of it: if every place exists, the
program runs without undefined behaviour (in particular no node is used after its release or released twice), every
variable has the value it should have, and the nodes in memory are those of the values of the variables, no more.
Missing from the full statement: assignments between a value and a part of it (`C63_part_of_itself_fails`,
`C63_whole_into_part_fails`, `C63_move_into_part_fails`), `RemoveMember` (`C63_remove_leaks_fails`), for which `C63_exact`
says what happens instead, and the buffers of strings
(`C63_string_leaks_fails`). -/
theorem C63_history_partial (ss : List (Stmt F)) (vars : List (Json F)) (m : meanings [] ss = some vars) :
    ∃ h, run start ss = .ok h ∧ Memory h vars := by
  obtain ⟨h, e, i⟩ := Inv.runs Inv.start m
  exact ⟨h, e, Inv.memory i⟩

/-- C63. When the last variable has left its scope, every node has been released. -/
theorem C63_released_partial (ss : List (Stmt F)) (m : meanings [] ss = some []) :
    ∃ h, run start ss = .ok h ∧ ∀ x, x ≠ 0 → h.cells x = none := by
  obtain ⟨h, e, mem⟩ := C63_history_partial ss [] m
  refine ⟨h, e, ?_⟩
  obtain ⟨ids, h0, _⟩ := mem.values
  obtain ⟨alive, nd, ha, len⟩ := mem.nodes
  intro x hx
  apply Classical.byContradiction
  intro c
  have m1 := (ha x).mpr c
  have m2 := (ha 0).mpr (by simp [h0])
  rw [nodesList] at len
  match alive, len with
  | [a], _ =>
    simp at m1 m2
    omega

/-- The places a statement writes to. -/
def Spec.writes : Stmt F → List (List Step)
  | .set p _ | .assign p _ | .touch p _ | .append p _ => [p]
  | .moveAssign p q => [p, q]
  | .declareMove q => [q]
  | .declare _ | .declareCopy _ | .leave => []

theorem store_other {vars : List (Json F)} {p : List Step} {v : Json F} {n : Nat} (h : p.head? ≠ some (.index n)) :
    (store vars p v)[n]? = vars[n]? := by
  cases p with
  | nil => rfl
  | cons s p =>
    cases s with
    | key => rfl
    | index i =>
      have : i ≠ n := fun c => h (by simp [c])
      simp only [store]
      rw [List.getElem?_modify]
      simp [this]

/-- C63. A statement leaves every variable as it is that it does not write to, in particular the source of a copy when
the copy is changed, and the copy when the source is changed. (The end of a scope is the end of a variable.) -/
theorem C63_others_unchanged (vars vars' : List (Json F)) (s : Stmt F) (n : Nat) (v : Json F)
    (m : meaning vars s = some vars') (l : s ≠ .leave) (w : ∀ p ∈ writes s, p.head? ≠ some (.index n))
    (e : vars[n]? = some v) : vars'[n]? = some v := by
  have app : ∀ (a b : List (Json F)), a[n]? = some v → (a ++ b)[n]? = some v := by
    intro a b ha
    rw [List.getElem?_append_left (lt_of_get? ha)]; exact ha
  cases s with
  | declare v => simp only [meaning, Option.some.injEq] at m; subst m; exact app _ _ e
  | declareCopy q =>
    simp only [meaning, Option.map_eq_some_iff] at m
    obtain ⟨_, _, rfl⟩ := m
    exact app _ _ e
  | declareMove q =>
    simp only [meaning, Option.map_eq_some_iff] at m
    obtain ⟨_, _, rfl⟩ := m
    exact app _ _ (by rw [store_other (w q (by simp [writes]))]; exact e)
  | leave => exact absurd rfl l
  | set p _ =>
    simp only [meaning, Option.map_eq_some_iff] at m
    obtain ⟨_, _, rfl⟩ := m
    rw [store_other (w p (by simp [writes]))]; exact e
  | touch p _ =>
    simp only [meaning, Option.map_eq_some_iff] at m
    obtain ⟨_, _, rfl⟩ := m
    rw [store_other (w p (by simp [writes]))]; exact e
  | append p q =>
    simp only [meaning, Option.bind_eq_some_iff, Option.map_eq_some_iff] at m
    obtain ⟨_, _, _, _, rfl⟩ := m
    rw [store_other (w p (by simp [writes]))]; exact e
  | assign p q =>
    simp only [meaning, Option.bind_eq_some_iff] at m
    obtain ⟨_, _, _, _, m⟩ := m
    split at m
    · simp only [Option.some.injEq] at m; subst m; exact e
    · split at m
      · simp only [Option.some.injEq] at m; subst m
        rw [store_other (w p (by simp [writes]))]; exact e
      · simp at m
  | moveAssign p q =>
    simp only [meaning, Option.bind_eq_some_iff] at m
    obtain ⟨_, _, _, _, m⟩ := m
    split at m
    · simp only [Option.some.injEq] at m; subst m; exact e
    · split at m
      · simp only [Option.some.injEq] at m; subst m
        rw [store_other (w p (by simp [writes])), store_other (w q (by simp [writes]))]; exact e
      · simp at m

theorem part_put {p : List Step} {j v : Json F} (w : Json F) (e : part p j = some v) : part p (put w p j) = some w := by
  induction p generalizing j with
  | nil => rfl
  | cons s p ih =>
    rw [get_slot] at e
    rw [put_slot]
    cases hs : slot s j with
    | none => simp [hs] at e
    | some i =>
      simp only [hs, Option.bind_some] at e ⊢
      cases hi : (kids j)[i]? with
      | none => simp [hi] at e
      | some x =>
        simp only [hi, Option.bind_some] at e
        have hl : ((kids j).modify i (put w p)).length = (kids j).length := by simp
        rw [get_slot, slot_setKids _ _ _ hl, hs]
        simp only [Option.bind_some]
        rw [kids_setKids _ _ hl, List.getElem?_modify, hi]
        simpa using ih e

theorem look_store {vars : List (Json F)} {p : List Step} {v : Json F} (w : Json F) (e : look vars p = some v) :
    look (store vars p w) p = some w := by
  cases p with
  | nil => simp [look] at e
  | cons s p =>
    cases s with
    | key => simp [look] at e
    | index i =>
      have := part_put w (get_look e)
      rw [put_store e] at this
      simpa [look, store, part] using this

/-- C63. After the construction of a variable by a move, the source is Null and the new variable has the value. -/
theorem C63_move_leaves_null (vars vars' : List (Json F)) (q : List Step) (v : Json F) (e : look vars q = some v)
    (m : meaning vars (.declareMove q) = some vars') :
    look vars' q = some .null ∧ vars'[vars.length]? = some v := by
  simp only [meaning, e, Option.map_some, Option.some.injEq] at m
  subst m
  have hs := look_store .null e
  have len : (store vars q .null).length = vars.length := by
    cases q with
    | nil => rfl
    | cons s p => cases s <;> simp [store]
  constructor
  · cases q with
    | nil => simp [look] at e
    | cons s p =>
      cases s with
      | key => simp [look] at e
      | index i =>
        simp only [look, Option.bind_eq_some_iff] at hs ⊢
        obtain ⟨x, h1, h2⟩ := hs
        exact ⟨x, by rw [List.getElem?_append_left (lt_of_get? h1)]; exact h1, h2⟩
  · rw [← len]; simp

/-! A concrete program. -/

section Examples

/-- The key `x`. -/
def keyX : Str := [⟨[120]⟩]

/-- `JsonData a = {}; a["x"] = 7; JsonData b{a}; b["x"] = "x"; JsonData c{std::move(a)}; b["x"].Append(c);
a = b["x"][0]; c = std::move(b["x"]);` -/
def aProgram : List (Stmt Unit) :=
  [.declare .emptyObject, .touch [.index 0] keyX, .set [.index 0, .key keyX] (.int 7), .declareCopy [.index 0],
   .set [.index 1, .key keyX] (.str keyX), .declareMove [.index 0], .append [.index 1, .key keyX] [.index 2],
   .assign [.index 0] [.index 1, .key keyX, .index 0], .moveAssign [.index 2] [.index 1, .key keyX]]

example : meanings [] aProgram = some
    [.obj [(keyX, .int 7)], .obj [(keyX, .null)], .arr [.obj [(keyX, .int 7)]]] := by rfl

example : ∃ h, run start aProgram = .ok h ∧
    Memory h [.obj [(keyX, .int 7)], .obj [(keyX, .null)], .arr [.obj [(keyX, .int 7)]]] :=
  C63_history_partial aProgram _ (by rfl)

example : ∃ h, run start (aProgram ++ [.leave, .leave, .leave]) = .ok h ∧ ∀ x, x ≠ 0 → h.cells x = none :=
  C63_released_partial _ (by rfl)

end Examples

/-! ## Where the claim is false -/

/-- C63 fails for strings: no program ever releases one. After every program, the strings that have been constructed and not destroyed are all
that the program has made, by declarations, copies, assignments and `Append`, whatever is still in use. -/
theorem C63_string_leaks_fails (ss : List (Stmt F)) (vars : List (Json F)) (m : meanings [] ss = some vars) :
    ∃ h, run start ss = .ok h ∧ h.strings = madeBy [] ss := by
  have main : ∀ (ss : List (Stmt F)) (h : Heap F) (vs : List (Json F)), Inv h vs [] → ∀ vars, meanings vs ss = some vars →
      ∃ h', run h ss = .ok h' ∧ h'.strings = h.strings + madeBy vs ss := by
    intro ss
    induction ss with
    | nil => intro h vs i vars m; exact ⟨h, rfl, rfl⟩
    | cons s ss ih =>
      intro h vs i vars m
      simp only [meanings, Option.bind_eq_some_iff] at m
      obtain ⟨v1, m1, m2⟩ := m
      obtain ⟨h1, e1, i1⟩ := i.run m1
      obtain ⟨h2, e2, s2⟩ := ih h1 v1 i1 vars m2
      refine ⟨h2, ?_, ?_⟩
      · rw [run, List.foldlM_cons, e1]
        exact e2
      · rw [s2, i.strings m1 e1, madeBy, m1]
        simp only [Option.map_some, Option.getD_some]
        omega
  obtain ⟨h, e, st⟩ := main ss start [] Inv.start vars m
  exact ⟨h, e, by rw [st]; simp [JsonNodes.start]⟩

/-- Nor is it a matter of strings still in use: a variable that is declared as a string and leaves its scope, and an array of one string that
is copied by `Append`. -/
example : madeBy (F := Unit) [] [.declare (.str keyX), .leave] = 1 ∧ meanings (F := Unit) [] [.declare (.str keyX), .leave] = some [] ∧
    madeBy (F := Unit) [] [.declare (.str keyX), .declare .emptyArray, .append [.index 1] [.index 0], .set [.index 0] (.int 1),
      .leave, .leave] = 3 := by
  refine ⟨by rfl, by rfl, by rfl⟩

end Caitlyn
