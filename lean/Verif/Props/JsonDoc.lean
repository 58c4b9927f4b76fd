import Verif.Model.JsonDoc
import Verif.Spec.OrderedMap
import Verif.Props.JsonParse

/-! # C59-C62, C64: the interface of `JsonData` and `JsonDocument` -/

namespace Caitlyn
open Spec

variable {F : Type}

/-! ## C60 -/

/-- An operation on a document: `AddMember`, `RemoveMember`, or `operator[]` with a change of the value it refers to
(the identity if it is only looked at). -/
inductive Spec.DocOp (F : Type) where
  | add (key : Str) (value : Json F)
  | remove (key : Str)
  | modify (key : Str) (f : Json F → Json F)

/-- The operations on the model. -/
def Spec.DocOp.run (ops : FloatOps F) : DocOp F → JsonDoc F → JsonDoc F
  | .add k v, d => d.addMember ops k v
  | .remove k, d => d.removeMember k
  | .modify k f, d => d.modify ops k f

/-- The operations on ordered maps. -/
def Spec.DocOp.spec : DocOp F → OMap Str (Json F) → OMap Str (Json F)
  | .add k v, m => m.insert k v
  | .remove k, m => m.erase k
  | .modify k f, m => m.update k .null f

/-- The document shows the map `m`: its root is an object with the keys of `m` in their order and the values of
`m`. -/
def Spec.Shows (d : JsonDoc F) (m : OMap Str (Json F)) : Prop :=
  ∃ ms, d.root = .obj ms ∧ ms.map Prod.fst = m.keys ∧ m.keys.Nodup ∧ ∀ k, Json.findMember k ms = m.val k

theorem findMember_some {k : Str} {ms : List (Str × Json F)} :
    (Json.findMember k ms).isSome = true ↔ k ∈ ms.map Prod.fst := by
  induction ms with
  | nil => simp [Json.findMember]
  | cons m ms ih =>
    obtain ⟨k', v⟩ := m
    rw [Json.findMember]
    by_cases h : k' = k
    · simp [h]
    · rw [if_neg h, ih, List.map_cons, List.mem_cons]
      exact ⟨.inr, fun h' => h'.resolve_left (fun e => h e.symm)⟩

theorem findMember_set (k x : Str) (v : Json F) (ms : List (Str × Json F)) :
    Json.findMember x (Json.setMember k v ms) = if x = k then some v else Json.findMember x ms := by
  induction ms with
  | nil =>
    simp only [Json.setMember, Json.findMember]
    by_cases h : x = k
    · rw [if_pos h, if_pos h.symm]
    · rw [if_neg h, if_neg (fun e => h e.symm)]
  | cons m ms ih =>
    obtain ⟨k', v'⟩ := m
    rw [Json.setMember]
    by_cases h : k' = k
    · subst h
      rw [if_pos rfl, Json.findMember, Json.findMember]
      by_cases hx : x = k'
      · rw [if_pos hx.symm, if_pos hx]
      · rw [if_neg (fun e => hx e.symm), if_neg hx, if_neg (fun e => hx e.symm)]
    · rw [if_neg h, Json.findMember, Json.findMember, ih]
      by_cases hx : k' = x
      · rw [if_pos hx, if_neg (fun e => h (hx.trans e)), if_pos hx]
      · rw [if_neg hx, if_neg hx]

theorem shows_set {d : JsonDoc F} {m : OMap Str (Json F)} (ms : List (Str × Json F)) (hk : ms.map Prod.fst = m.keys)
    (hn : m.keys.Nodup) (hv : ∀ k, Json.findMember k ms = m.val k) (k : Str) (v : Json F) :
    Shows { d with root := .obj (Json.setMember k v ms) } (m.insert k v) := by
  have hkeys : (Json.setMember k v ms).map Prod.fst = (m.insert k v).keys := by
    rw [setMember_keys, hk]
    by_cases h : k ∈ m.keys <;> simp [OMap.insert, h]
  refine ⟨_, rfl, hkeys, ?_, fun x => ?_⟩
  · rw [← hkeys]; exact setMember_nodup k v ms (hk ▸ hn)
  · rw [findMember_set, hv]; rfl

theorem findMember_filter (k x : Str) (ms : List (Str × Json F)) :
    Json.findMember x (ms.filter fun m => !decide (m.1 = k)) = if x = k then none else Json.findMember x ms := by
  induction ms with
  | nil => simp [Json.findMember]
  | cons m ms ih =>
    obtain ⟨k', v⟩ := m
    by_cases h : k' = k
    · subst h
      rw [List.filter_cons_of_neg (by simp), ih, Json.findMember]
      by_cases hx : x = k'
      · rw [if_pos hx, if_pos hx]
      · rw [if_neg hx, if_neg hx, if_neg (fun e => hx e.symm)]
    · rw [List.filter_cons_of_pos (by simpa using h), Json.findMember, Json.findMember, ih]
      by_cases hx : k' = x
      · rw [if_pos hx, if_pos hx, if_neg (fun e => h (hx.trans e))]
      · rw [if_neg hx, if_neg hx]

/-- C60: every operation on a document does what the corresponding operation does to the map it shows. -/
theorem C60_step (ops : FloatOps F) (o : DocOp F) (d : JsonDoc F) (m : OMap Str (Json F)) (h : Shows d m) :
    Shows (o.run ops d) (o.spec m) := by
  obtain ⟨ms, hr, hk, hn, hv⟩ := h
  cases o with
  | add k v =>
    simp only [DocOp.run, JsonDoc.addMember, JsonDoc.modify, Json.modifyKey, hr]
    exact shows_set ms hk hn hv k v
  | modify k f =>
    simp only [DocOp.run, JsonDoc.modify, Json.modifyKey, hr, DocOp.spec, OMap.update]
    rw [← hv]
    exact shows_set ms hk hn hv k _
  | remove k =>
    simp only [DocOp.run, JsonDoc.removeMember, hr, Json.hasMember, DocOp.spec]
    have hkeys : ((ms.filter fun m => !decide (m.1 = k)).map Prod.fst) = (m.erase k).keys := by
      simp only [OMap.erase, ← hk, List.filter_map]
      congr 1
      apply List.filter_congr
      intro x _; simp
    split
    · refine ⟨_, rfl, hkeys, ?_, fun x => ?_⟩
      · exact hn.filter _
      · simp only [Json.members]
        rw [findMember_filter, hv]; rfl
    · rename_i hf
      have hnot : k ∉ ms.map Prod.fst := fun h' => hf (findMember_some.mpr h')
      refine ⟨ms, hr, ?_, ?_, fun x => ?_⟩
      · rw [← hkeys, List.filter_eq_self.mpr]
        intro m hm
        have : m.1 ≠ k := fun e => hnot (e ▸ List.mem_map_of_mem hm)
        simpa using this
      · exact hn.filter _
      · rw [hv]
        simp only [OMap.erase]
        split
        · rename_i e
          subst e
          have := hv x
          cases hx : m.val x with
          | none => rfl
          | some v =>
            rw [hx] at this
            exact absurd (findMember_some.mp (by rw [this]; rfl)) hnot
        · rfl

/-- C60: so does every sequence of operations. -/
theorem C60_history_partial (ops : FloatOps F) (os : List (DocOp F)) : ∀ (d : JsonDoc F) (m : OMap Str (Json F)),
    Shows d m → Shows (os.foldl (fun d o => o.run ops d) d) (os.foldl (fun m o => o.spec m) m) := by
  induction os with
  | nil => intro d m h; exact h
  | cons o os ih => intro d m h; exact ih _ _ (C60_step ops o d m h)

/-- C60: a new document shows the empty map. -/
theorem C60_new : Shows ({} : JsonDoc F) .empty := ⟨[], rfl, rfl, by simp [OMap.empty], fun _ => rfl⟩

/-- C60: a document parsed without error shows a map. -/
theorem C60_parsed (ops : FloatOps F) (s : Str) (d d' : JsonDoc F) (h : d.parse ops s = .ok d')
    (he : d'.hasError = false) : ∃ m, Shows d' m := by
  unfold JsonDoc.parse at h
  cases hp : JsonParser.document ops s with
  | error x => rw [hp] at h; cases h
  | ok r =>
    obtain ⟨root, e⟩ := r
    rw [hp] at h
    injection h with h
    subst h
    rcases C55_root ops s root e hp with ⟨h1, h2⟩ | ⟨h1, ms, rfl⟩
    · simp [JsonDoc.hasError] at he; exact absurd he h1
    · have hu := C59_parse ops s _ e hp
      cases hu with
      | obj _ hn _ => exact ⟨⟨ms.map Prod.fst, fun k => Json.findMember k ms⟩, ms, rfl, rfl, hn, fun _ => rfl⟩

/-- C60: what a document tells: `HasMember`, `Size` and `operator[] const` are those of the map; the last throws
`out_of_range` if there is no such key. -/
theorem C60_observe (d : JsonDoc F) (m : OMap Str (Json F)) (h : Shows d m) (k : Str) :
    d.hasMember k = (m.val k).isSome ∧ d.size = m.keys.length ∧
      d.at' k = (match m.val k with | some v => .ok v | none => .error .outOfRange) := by
  obtain ⟨ms, hr, hk, hn, hv⟩ := h
  refine ⟨?_, ?_, ?_⟩
  · simp only [JsonDoc.hasMember, hr, Json.hasMember, hv]
  · simp only [JsonDoc.size, hr, Json.size, ← hk, List.length_map]
  · simp only [JsonDoc.at', hr, Json.atKey, hv]
    cases m.val k <;> rfl

/-- C60 fails for documents whose last parse reported an error: they have no members but their size is the largest
number, and `operator[] const` is undefined instead of throwing. -/
theorem C60_fails_after_error :
    ∃ d : JsonDoc Unit, ({} : JsonDoc Unit).parse oneFloat c!"[]" = .ok d ∧ d.hasMember c!"a" = false ∧
      d.size = 2 ^ 64 - 1 ∧ d.at' c!"a" = .error .ub := ⟨⟨.null, .invalidJson⟩, rfl, rfl, rfl, rfl⟩

example : (([.add c!"b" (.int 1), .add c!"a" (.int 2), .modify c!"c" id, .add c!"b" (.int 3), .remove c!"a",
      .add c!"a" .null] : List (DocOp Unit)).foldl (fun d (o : DocOp Unit) => o.run oneFloat d) ({} : JsonDoc Unit)).root =
    .obj [(c!"b", .int 3), (c!"c", .null), (c!"a", .null)] := rfl

/-! ## C59, for histories -/

/-- Values a program can make: with the factory functions, by parsing, as parts of others, and by changing others
through `operator[]`, `Append`, `AddMember`, `RemoveMember` and assignment. -/
inductive Spec.Made (ops : FloatOps F) : Json F → Prop where
  | make (t) : Made ops (Json.make ops t)
  | bool (b) : Made ops (.bool b)
  | int (i) : Made ops (.int i)
  | float (f) : Made ops (.float f)
  | str (s) : Made ops (.str s)
  | parsed (s d d') : JsonDoc.parse ops s d = .ok d' → Made ops d'.root
  | member (k j v) : Made ops j → j.atKey k = .ok v → Made ops v
  | item (i j v) : Made ops j → j.atIndex i = .ok v → Made ops v
  | append (v j) : Made ops v → Made ops j → Made ops (j.append ops v)
  | index (i v j j') : Made ops v → Made ops j → j.modifyIndex ops i (fun _ => v) = .ok j' → Made ops j'
  | key (k v j) : Made ops v → Made ops j → Made ops (j.modifyKey ops k fun _ => v)
  | remove (k d) : Made ops d.root → Made ops (JsonDoc.removeMember k d).root

theorem findMember_mem {k : Str} {v : Json F} {ms : List (Str × Json F)} (h : Json.findMember k ms = some v) :
    (k, v) ∈ ms := by
  induction ms with
  | nil => cases h
  | cons m ms ih =>
    obtain ⟨k', v'⟩ := m
    rw [Json.findMember] at h
    split at h
    · rename_i e; injection h with h; subst e; subst h; exact .head _
    · exact .tail _ (ih h)

theorem unique_items {ops : FloatOps F} {j : Json F} (h : UniqueKeys j) :
    ∀ x ∈ (Json.setType ops .array j).items, UniqueKeys x := by
  cases h with
  | arr js hjs => exact hjs
  | _ => intro x hx; cases hx

theorem unique_members {ops : FloatOps F} {j : Json F} (h : UniqueKeys j) :
    UniqueKeys (.obj (Json.setType ops .object j).members) := by
  cases h with
  | obj ms h1 h2 => exact .obj ms h1 h2
  | _ => exact .obj [] (by simp) (by simp)

/-- C59: no value a program can make has two members with the same key. Missing: writing to the vector that
`GetData()` refers to, which is not checked (`C59_fails_getData`). -/
theorem C59_history_partial (ops : FloatOps F) (j : Json F) (h : Made ops j) : UniqueKeys j := by
  induction h with
  | make t => cases t <;> first | exact .obj [] (by simp) (by simp) | exact .arr [] (by simp) | constructor
  | bool b => exact .bool b
  | int i => exact .int i
  | float f => exact .float f
  | str s => exact .str s
  | parsed s d d' h =>
    unfold JsonDoc.parse at h
    cases hp : JsonParser.document ops s with
    | error x => rw [hp] at h; cases h
    | ok r =>
      obtain ⟨root, e⟩ := r
      rw [hp] at h
      injection h with h
      subst h
      exact C59_parse ops s root e hp
  | member k j v _ hv ih =>
    cases ih with
    | obj ms _ hm =>
      simp only [Json.atKey] at hv
      cases hf : Json.findMember k ms with
      | none => rw [hf] at hv; cases hv
      | some v' => rw [hf] at hv; injection hv with hv; subst hv; exact hm _ (findMember_mem hf)
    | _ => cases hv
  | item i j v _ hv ih =>
    cases ih with
    | arr js hj =>
      simp only [Json.atIndex] at hv
      cases hf : js[i]? with
      | none => rw [hf] at hv; cases hv
      | some v' => rw [hf] at hv; injection hv with hv; subst hv; exact hj _ (List.mem_of_getElem? hf)
    | _ => cases hv
  | append v j _ _ ihv ihj =>
    refine .arr _ ?_
    intro x hx
    rcases List.mem_append.mp hx with hx | hx
    · refine unique_items (ops := ops) ihj x ?_
      by_cases ht : j.type ≠ .array
      · rw [if_pos ht] at hx; exact hx
      · rw [if_neg ht] at hx
        cases j <;> first | exact hx | cases hx
    · rw [List.mem_singleton.mp hx]; exact ihv
  | index i v j j' _ _ h ihv ihj =>
    unfold Json.modifyIndex at h
    simp only at h
    split at h
    · injection h with h
      subst h
      refine .arr _ ?_
      intro x hx
      rcases List.mem_or_eq_of_mem_set hx with hx | hx
      · exact unique_items ihj x hx
      · rw [hx]; exact ihv
    · cases h
  | key k v j _ _ ihv ihj => exact unique_set ihv (unique_members ihj)
  | remove k d _ ih =>
    unfold JsonDoc.removeMember
    split
    · generalize hr : d.root = r at ih ⊢
      cases ih with
      | obj ms h1 h2 =>
        refine .obj _ ?_ ?_
        · refine List.Sublist.nodup (List.Sublist.map _ List.filter_sublist) h1
        · exact fun m hm => h2 m (List.mem_filter.mp hm).1
      | _ => exact .obj [] (by simp) (by simp)
    · exact ih

/-- C59 fails for writes through the reference that `GetData()` returns: nothing checks the keys. -/
theorem C59_fails_getData (v : Json F) :
    ∃ ms, (Json.obj [(c!"k", v)]).getData = .ok ms ∧ ¬ UniqueKeys (.obj (ms ++ [(c!"k", v)])) := by
  refine ⟨_, rfl, ?_⟩
  intro h
  cases h with
  | obj _ h _ => revert h; simp

example : Made oneFloat (.obj [(c!"a", .arr [.int 1])]) :=
  .key c!"a" _ (.obj []) (.append (ops := oneFloat) (.int 1) (.arr []) (.int 1) (.make .array)) (.make .object)

/-! ## C61 -/

/-- C61: `Append` adds at the end, `Size` counts, `At` is bounds checked, and `operator[]` in range refers to the
element. -/
theorem C61_operations (ops : FloatOps F) (js : List (Json F)) (v : Json F) (i : Nat) (f : Json F → Json F) :
    (Json.arr js).append ops v = .arr (js ++ [v]) ∧ (Json.arr js).size = js.length ∧
    (∀ h : i < js.length, (Json.arr js).atIndex i = .ok js[i] ∧
      (Json.arr js).modifyIndex ops i f = .ok (.arr (js.set i (f js[i])))) ∧
    (js.length ≤ i → (Json.arr js).atIndex i = .error .outOfRange) := by
  refine ⟨rfl, rfl, fun h => ⟨?_, ?_⟩, fun h => ?_⟩
  · simp [Json.atIndex, List.getElem?_eq_getElem h]
  · simp [Json.modifyIndex, Json.setType, Json.type, Json.items, List.getElem?_eq_getElem h]
  · simp [Json.atIndex, List.getElem?_eq_none h]

/-- An operation on an array: `Append`, or an assignment through `operator[]`. -/
inductive Spec.ArrOp (F : Type) where
  | append (v : Json F)
  | set (i : Nat) (v : Json F)

/-- The operations on the model. -/
def Spec.ArrOp.run (ops : FloatOps F) : ArrOp F → Json F → Res (Json F)
  | .append v, j => .ok (j.append ops v)
  | .set i v, j => j.modifyIndex ops i fun _ => v

/-- The operations on lists; none if the index is out of range. -/
def Spec.ArrOp.spec : ArrOp F → List (Json F) → Option (List (Json F))
  | .append v, js => some (js ++ [v])
  | .set i v, js => if i < js.length then some (js.set i v) else none

/-- C61: every history of appends and assignments in range makes the array that the history on lists makes, starting
from any array; from any other value the first operation starts with an empty array. -/
theorem C61_history (ops : FloatOps F) (os : List (ArrOp F)) : ∀ (js js' : List (Json F)),
    os.foldlM (fun js o => o.spec js) js = some js' →
    os.foldlM (fun j o => o.run ops j) (.arr js) = .ok (.arr js') := by
  induction os with
  | nil => intro js js' h; injection h with h; subst h; rfl
  | cons o os ih =>
    intro js js' h
    rw [List.foldlM_cons] at h ⊢
    cases o with
    | append v => exact ih _ _ h
    | set i v =>
      by_cases hi : i < js.length
      · simp only [ArrOp.spec, if_pos hi] at h
        rw [show ArrOp.run ops (.set i v) (.arr js) = .ok (.arr (js.set i v)) from
          ((C61_operations ops js v i fun _ => v).2.2.1 hi).2]
        exact ih _ _ h
      · simp only [ArrOp.spec, if_neg hi] at h; cases h

/-- C61: `Append` to a value that is no array replaces it by an array of the one element. -/
theorem C61_append_other (ops : FloatOps F) (j v : Json F) (h : j.type ≠ .array) : j.append ops v = .arr [v] := by
  cases j <;> first | rfl | exact absurd rfl h

/-- Beyond the end `operator[]` constructs an element at a null pointer. -/
theorem C61_beyond_end (ops : FloatOps F) (js : List (Json F)) (i : Nat) (f : Json F → Json F) (h : js.length ≤ i) :
    (Json.arr js).modifyIndex ops i f = .error .ub := by
  simp [Json.modifyIndex, Json.setType, Json.type, Json.items, List.getElem?_eq_none h]

example : ([.append (.int 1), .append .null, .set 0 (.bool true), .append (.int 4)] : List (ArrOp Unit)).foldlM
    (fun j o => o.run oneFloat j) (.arr []) = .ok (.arr [.bool true, .null, .int 4]) := rfl

/-- C61, exactly: `At(index) const` of a value that is no array reads a member of the union that is not active. -/
theorem C61_at_exact (j : Json F) (i : Nat) :
    (j.atIndex i = .error .ub ↔ j.type ≠ .array) ∧
    (j.atIndex i = .error .outOfRange ↔ ∃ js, j = .arr js ∧ js.length ≤ i) ∧
    ∀ v, (j.atIndex i = .ok v ↔ ∃ js, j = .arr js ∧ js[i]? = some v) := by
  cases j with
  | arr js =>
    simp only [Json.atIndex]
    cases h : js[i]? with
    | none => simp [Json.type, List.getElem?_eq_none_iff.mp h, h]
    | some w =>
      have := (List.getElem?_eq_some_iff.mp h).1
      simp [Json.type, h]
      omega
  | _ => simp [Json.atIndex, Json.type]

/-! ## C62 -/

/-- C62: the getters return the stored value if the type is theirs, and the default if it is not. -/
theorem C62_getters (ops : FloatOps F) (j : Json F) :
    (∀ s, (j = .str s → j.getString = s) ∧ (j.type ≠ .string → j.getString = [])) ∧
    (∀ f, (j = .float f → j.getFloating ops = f) ∧ (j.type ≠ .floating → j.getFloating ops = ops.zero)) ∧
    (∀ i, (j = .int i → j.getIntegral = i) ∧ (j.type ≠ .integral → j.getIntegral = 0)) ∧
    (∀ b, (j = .bool b → j.getBoolean = b) ∧ (j.type ≠ .boolean → j.getBoolean = false)) ∧
    (∀ ms, (j = .obj ms → j.getData = .ok ms) ∧ (j.type ≠ .object → j.getData = .error .logicError)) := by
  refine ⟨fun s => ⟨?_, fun h => ?_⟩, fun f => ⟨?_, fun h => ?_⟩, fun i => ⟨?_, fun h => ?_⟩, fun b => ⟨?_, fun h => ?_⟩,
    fun ms => ⟨?_, fun h => ?_⟩⟩ <;>
    first
    | (rintro rfl; rfl)
    | (cases j <;> first | rfl | exact absurd rfl h)

/-- C62: assignment of a number, boolean or string gives a value of that type whose getter gives what was
assigned. -/
theorem C62_assign (ops : FloatOps F) (j : Json F) (b : Bool) (i : Int) (f : F) (s : Str) :
    ((j.assignBool b).type = .boolean ∧ (j.assignBool b).getBoolean = b) ∧
    ((j.assignInt i).type = .integral ∧ (j.assignInt i).getIntegral = i) ∧
    ((j.assignFloat f).type = .floating ∧ (j.assignFloat f).getFloating ops = f) ∧
    ((j.assignString s).type = .string ∧ (j.assignString s).getString = s) :=
  ⟨⟨rfl, rfl⟩, ⟨rfl, rfl⟩, ⟨rfl, rfl⟩, ⟨rfl, rfl⟩⟩

/-- C62, for `Make(type)`, `MakeObject`, `MakeArray`, `MakeNull` and `MakeString`: they make the type they name.
Missing: `MakeFloating`, `MakeIntegral` and `MakeBoolean` (`C62_fails_make`). -/
theorem C62_make_partial (ops : FloatOps F) (t : JsonClass) (vs : List (Json F)) (s : Str) (hs : Shapes s) :
    (Json.make ops t).type = t ∧ (Json.makeArray ops vs) = .arr vs ∧
      Json.makeString (F := F) (Str.str s) = .ok (.str s) := by
  refine ⟨by cases t <;> rfl, ?_, ?_⟩
  · have : ∀ (vs js : List (Json F)), Json.appendAll ops vs (.arr js) = .arr (js ++ vs) := by
      intro vs
      induction vs with
      | nil => intro js; simp [Json.appendAll]
      | cons v vs ih =>
        intro js
        rw [Json.appendAll, (C61_operations ops js v 0 id).1, ih, List.append_assoc]; rfl
    exact this vs []
  · simp [Json.makeString, Str.ofStdString_str s hs, bind, Except.bind, pure, Except.pure]

/-- C62: a value made by `Make(type)` is the default of that type: all its getters give the default value and it has
no elements. -/
theorem C62_make_default (ops : FloatOps F) (t : JsonClass) :
    (Json.make ops t).getString = [] ∧ (Json.make ops t).getFloating ops = ops.zero ∧
    (Json.make ops t).getIntegral = 0 ∧ (Json.make ops t).getBoolean = false ∧
    (t = .array ∨ t = .object → (Json.make ops t).size = 0) := by
  cases t <;> simp [Json.make, Json.setType, Json.type, Json.getString, Json.getFloating, Json.getIntegral,
    Json.getBoolean, Json.size]

/-- C62 fails, for every value: `MakeBoolean` makes a string; so do `MakeIntegral` and `MakeFloating`. -/
theorem C62_fails_make :
    (∀ b : Bool, Json.makeBoolean (F := F) b = .ok (.str (if b then c!"1" else c!"0"))) ∧
    (Json.makeIntegral (F := F) (-7) = .ok (.str c!"-7")) ∧
    (∀ (ops : FloatOps F) (f : F) (j : Json F), Json.makeFloating ops f = .ok j → j.type = .string) ∧
    (∀ (i : Int) (j : Json F), Json.makeIntegral i = .ok j → j.type = .string) := by
  have key : ∀ (bs : List UInt8) (j : Json F), Json.makeString bs = .ok j → j.type = .string := by
    intro bs j h
    unfold Json.makeString at h
    cases ho : Str.ofStdString bs with
    | error e => rw [ho] at h; cases h
    | ok s => rw [ho] at h; injection h with h; subst h; rfl
  refine ⟨fun b => by cases b <;> rfl, rfl, fun ops f j h => key _ j h, fun i j h => key _ j h⟩

example : (Json.str c!"x" : Json Unit).getIntegral = 0 ∧ (Json.int 5 : Json Unit).getIntegral = 5 ∧
    (Json.make oneFloat .array).type = .array := ⟨rfl, rfl, rfl⟩

/-! ## C64 -/

/-- C64, for all errors but two: the messages are distinct. Missing: `InvalidEscapeSequence` and `OutOfRangeError`,
which have the same message (`C64_fails`). -/
theorem C64_partial (a b : JsonError) (ha : a ≠ .invalidEscapeSequence ∧ a ≠ .outOfRangeError)
    (h : a.message = b.message) : a = b := by
  revert ha h
  cases a <;> cases b <;> decide

/-- C64 fails. -/
theorem C64_fails : JsonError.invalidEscapeSequence.message = JsonError.outOfRangeError.message := rfl

example : JsonError.missingColon.message ≠ JsonError.trailingComma.message := by decide

end Caitlyn
