import Verif.Proofs.JsonRefs
import Verif.Props.JsonNodes

/-! # C151: references into `JsonData` values -/

namespace Caitlyn
open Spec JsonNodes

variable {F : Type}

theorem Standing.start : Standing (start : Heap F) [] [] := ⟨rfl, by intro k o x h; simp at h⟩

/-- C151. What every program with references does, in any order of statements and any use of the references: where it is
undefined, it uses a reference whose value has been overwritten or destroyed; otherwise the variables have the values that the
specification without memory gives, and each reference is the node of the place that the specification gives, also after
any number of `Append`, `operator[]` and moves of the values around it. -/
theorem C151_exact (ss : List (RStmt F)) :
    (∀ vars refs, rmeanings [] [] ss = some (.done vars refs) →
      ∃ h xs, runRefs (start, []) ss = .ok (h, xs) ∧ Memory h vars ∧ Refs h vars refs xs) ∧
    (rmeanings [] [] ss = some .undefined → runRefs (start, []) ss = .error .ub) := by
  constructor
  · intro vars refs m
    obtain ⟨h, xs, e, i, st⟩ := Inv.refs (E := []) Inv.start Standing.start m
    exact ⟨h, xs, e, Inv.memory i, st.refs i⟩
  · intro m
    exact Inv.refs (E := []) Inv.start Standing.start m

theorem rmeanings_append (vars : List (Json F)) (refs : List (Option (List Step))) (ss ts : List (RStmt F)) :
    rmeanings vars refs (ss ++ ts) = match rmeanings vars refs ss with
      | some (.done vars' refs') => rmeanings vars' refs' ts
      | o => o := by
  induction ss generalizing vars refs with
  | nil => rfl
  | cons s ss ih =>
    rw [List.cons_append, rmeanings, rmeanings]
    cases rmeaning vars refs s with
    | none => rfl
    | some o =>
      cases o with
      | undefined => rfl
      | done v r => exact ih v r

/-- A statement that only adds to values: a new variable, a new reference, `Append` to an array, `operator[]` of an object. -/
def Spec.Grows (vars : List (Json F)) (refs : List (Option (List Step))) : RStmt F → Prop
  | .bind _ | .declare _ | .one .declareCopy _ => True
  | .one (.touch _) P => ∃ p, target refs P = some (some p) ∧ (look vars p).map Json.type = some .object
  | .two .append P _ => ∃ p, target refs P = some (some p) ∧ (look vars p).map Json.type = some .array
  | _ => False

theorem grown {vars vars' : List (Json F)} {refs refs' : List (Option (List Step))} {s : RStmt F} (g : Grows vars refs s)
    (m : rmeaning vars refs s = some (.done vars' refs')) : refs <+: refs' := by
  have key : ∀ {s : Stmt F}, (∀ p, track vars p s = some p) → onPlaces vars refs s = some (.done vars' refs') → refs' = refs := by
    intro s h e
    simp only [onPlaces, Option.map_eq_some_iff, ROutcome.done.injEq] at e
    obtain ⟨_, _, _, rfl⟩ := e
    have : (fun (p : Option (List Step)) => p.bind fun p => track vars p s) = id := by
      funext p
      cases p with
      | none => rfl
      | some p => exact h p
    rw [this, List.map_id]
  cases s with
  | bind P =>
    rw [rmeaning] at m
    cases t : target refs P with
    | none => rw [t] at m; cases m
    | some q =>
      rw [t] at m
      cases q with
      | none =>
        simp only [Option.some.injEq] at m
        unfold rebind at m
        split at m
        · cases m
        · cases m; exact List.prefix_append _ _
      | some p =>
        simp only [Option.map_eq_some_iff] at m
        obtain ⟨_, _, e⟩ := m
        cases e
        exact List.prefix_append _ _
  | declare v => exact (key (fun _ => rfl) m) ▸ List.prefix_rfl
  | leave => exact g.elim
  | one k P =>
    rw [rmeaning] at m
    cases t : target refs P with
    | none => rw [t] at m; cases m
    | some q =>
      rw [t] at m
      cases q with
      | none => cases m
      | some p =>
        cases k with
        | declareCopy => exact (key (fun _ => rfl) m) ▸ List.prefix_rfl
        | declareMove => exact g.elim
        | set => exact g.elim
        | touch k =>
          obtain ⟨p', e, ty⟩ := g
          rw [t] at e
          cases e
          exact (key (s := .touch p k) (fun _ => by rw [track, if_neg (fun c => c.2 ty)]) m) ▸ List.prefix_rfl
  | two k P Q =>
    cases k with
    | assign => exact g.elim
    | moveAssign => exact g.elim
    | append =>
      obtain ⟨p, t, ty⟩ := g
      rw [rmeaning, t] at m
      cases t' : target refs Q with
      | none => rw [t'] at m; cases m
      | some q =>
        rw [t'] at m
        cases q with
        | none =>
          simp only [Option.map_eq_some_iff] at m
          obtain ⟨_, _, e⟩ := m
          cases e
        | some q => exact (key (s := .append p q) (fun _ => by rw [track, if_neg (fun c => c.2 ty)]) m) ▸ List.prefix_rfl

/-- C151. Growing never invalidates a reference, unlike that of a `std::vector`: where an array or object gets more items or
members, by `Append` or `operator[]`, through variables or references, and where variables or references are declared, each
reference that there is stays the same node with the same place. -/
theorem C151_growing (ss : List (RStmt F)) (s : RStmt F) (vars vars' : List (Json F)) (refs refs' : List (Option (List Step)))
    (m : rmeanings [] [] ss = some (.done vars refs)) (g : Grows vars refs s)
    (m' : rmeaning vars refs s = some (.done vars' refs')) :
    ∃ h xs h' xs', runRefs (start, []) ss = .ok (h, xs) ∧ runRefs (start, []) (ss ++ [s]) = .ok (h', xs') ∧ xs <+: xs' ∧
      Refs h vars refs xs ∧ Refs h' vars' refs' xs' ∧ ∀ (k : Nat) (p : List Step), refs[k]? = some (some p) → refs'[k]? = some (some p) := by
  obtain ⟨h, xs, e, i, st⟩ := Inv.refs (E := []) Inv.start Standing.start m
  have c := i.rstmt st m'
  obtain ⟨h', xs', e', i', st'⟩ := c
  refine ⟨h, xs, h', xs', e, ?_, ?_, st.refs i, st'.refs i', ?_⟩
  · rw [runRefs, List.foldlM_append]
    change (runRefs (start, []) ss >>= fun t => [s].foldlM (fun s st => st.run s) t) = _
    rw [e]
    change [s].foldlM (fun s st => st.run s) (h, xs) = _
    rw [List.foldlM_cons, e']
    rfl
  · cases s with
    | bind P =>
      obtain ⟨x, _, e2⟩ := bind_ok e'
      cases e2
      exact List.prefix_append _ _
    | declare v =>
      obtain ⟨r, _, e2⟩ := bind_ok e'
      obtain ⟨h2, _, e3⟩ := bind_ok e2
      cases e3
      exact List.prefix_rfl
    | leave => exact g.elim
    | one k P =>
      obtain ⟨x, _, e2⟩ := bind_ok e'
      obtain ⟨h2, _, e3⟩ := bind_ok e2
      cases e3
      exact List.prefix_rfl
    | two k P Q =>
      obtain ⟨x, _, e2⟩ := bind_ok e'
      obtain ⟨y, _, e3⟩ := bind_ok e2
      obtain ⟨h2, _, e4⟩ := bind_ok e3
      cases e4
      exact List.prefix_rfl
  · intro k p hk
    obtain ⟨t, rfl⟩ := grown g m'
    rw [List.getElem?_append_left (lt_of_get? hk)]
    exact hk

/-- C151 fails: looking up a key is enough to invalidate references. After every program and for every reference to a part of
a value that is not an object, `value[key]`, without an assignment, destroys what the reference refers to: every use of
it afterwards is undefined. -/
theorem C151_lookup_fails (ss : List (RStmt F)) (vars : List (Json F)) (refs : List (Option (List Step)))
    (m : rmeanings [] [] ss = some (.done vars refs)) (k : Nat) (q : List Step) (s : Step) (r : List Step) (v : Json F)
    (hk : refs[k]? = some (some (q ++ s :: r))) (hv : look vars q = some v) (ty : v.type ≠ .object) (key : Str)
    (use : Unary F) (path : List Step) :
    runRefs (start, []) (ss ++ [.one (.touch key) (.var q), .one use (.ref k path)]) = .error .ub := by
  refine (C151_exact _).2 ?_
  rw [rmeanings_append, m]
  have po : PartOf q (q ++ s :: r) := by
    refine ⟨List.prefix_append _ _, fun c => ?_⟩
    have := congrArg List.length c
    simp only [List.length_append, List.length_cons] at this
    omega
  have e1 : rmeaning vars refs (.one (.touch key) (.var q)) =
      some (.done (store vars q (withKey key v)) (refs.map fun p => p.bind fun p => track vars p (.touch q key))) := by
    simp only [rmeaning, target, stmt1, onPlaces, meaning, hv, Option.map_some]
  have e2 : track vars (q ++ s :: r) (.touch q key) = none := by
    rw [track, if_pos ⟨po, by rw [hv]; simpa using ty⟩]
  simp only [rmeanings, e1]
  have e3 : target (refs.map fun p => p.bind fun p => track vars p (.touch q key)) (.ref k path) = some none := by
    simp [target, hk, e2]
  rw [rmeaning, e3]

/-! Concrete programs. -/

section Examples

/-- `JsonData a = []; a.Append(a); auto& r = a.At(0); a.Append(a); a.Append(r); r = 7;`: the array has grown and `r` is still its
first item. -/
def growing : List (RStmt Unit) :=
  [.declare .emptyArray, .two .append (.var [.index 0]) (.var [.index 0]), .bind (.var [.index 0, .index 0]),
    .two .append (.var [.index 0]) (.var [.index 0]), .two .append (.var [.index 0]) (.ref 0 []), .one (.set (.int 7)) (.ref 0 [])]

example : rmeanings [] [] growing =
    some (.done [.arr [.int 7, .arr [.arr []], .arr []]] [some [.index 0, .index 0]]) := by rfl

example : ∃ h xs, runRefs (start, []) growing = .ok (h, xs) ∧ Memory h [.arr [.int 7, .arr [.arr []], .arr []]] ∧
    Refs h [.arr [.int 7, .arr [.arr []], .arr []]] [some [.index 0, .index 0]] xs :=
  (C151_exact growing).1 _ _ rfl

/-- `JsonData a = {}; auto& r = a["x"]; JsonData b{std::move(a)}; r = true;`: the reference goes along, `b` is changed. -/
def along : List (RStmt Unit) :=
  [.declare .emptyObject, .one (.touch keyX) (.var [.index 0]), .bind (.var [.index 0, .key keyX]), .one .declareMove (.var [.index 0]),
    .one (.set (.bool true)) (.ref 0 [])]

example : rmeanings [] [] along = some (.done [.null, .obj [(keyX, .bool true)]] [some [.index 1, .key keyX]]) := by rfl

/-- `JsonData a = []; a.Append(a); auto& r = a.At(0); a["x"]; r = 7;` -/
def beforeLookup : List (RStmt Unit) :=
  [.declare .emptyArray, .two .append (.var [.index 0]) (.var [.index 0]), .bind (.var [.index 0, .index 0])]

example : runRefs (start, []) (beforeLookup ++ [.one (.touch keyX) (.var [.index 0]), .one (.set (.int 7)) (.ref 0 [])]) = .error .ub :=
  C151_lookup_fails beforeLookup _ _ rfl 0 [.index 0] (.index 0) [] (.arr [.arr []]) rfl rfl (by simp [Json.type]) keyX _ []

/-- A reference to a variable that has left its scope. -/
example : rmeanings [] [] ([.declare .null, .bind (.var [.index 0]), .leave, .one .declareCopy (.ref 0 [])] : List (RStmt Unit)) =
    some .undefined := by rfl

/-- The reference that is assigned to itself through the variable. -/
example : rmeanings [] [] ([.declare .emptyArray, .bind (.var [.index 0]), .two .moveAssign (.ref 0 []) (.var [.index 0]),
    .one (.touch keyX) (.ref 0 [])] : List (RStmt Unit)) = some (.done [.obj [(keyX, .null)]] [some [.index 0]]) := by rfl

end Examples

end Caitlyn
