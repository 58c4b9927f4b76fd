import Verif.Proofs.JsonDepth
import Verif.Props.JsonNodes
import Verif.Props.PrintMem

/-! # Property C171: the stack that destroying and copying a JSON value needs -/

namespace Caitlyn
open Spec JsonNodes
open Spec.Print (height heights)

variable {F : Type}

/-- The variable `i` of a program, in memory. -/
theorem Inv.variable {h : Heap F} {vars : List (Json F)} (i : Inv h vars []) :
    Fresh h ∧ ∃ ids, h.cells 0 = some (.arr ids) ∧ ∀ (k x : Nat) (j : Json F), ids[k]? = some x → vars[k]? = some j →
      ∃ fp, Rep h x j fp ∧ fp.Nodup := by
  obtain ⟨fp, r, nd, _, _, w⟩ := i
  rw [List.append_nil] at nd
  refine ⟨w, ?_⟩
  cases r with
  | @arr _ ids _ fp c rs =>
    refine ⟨ids, c, ?_⟩
    rw [List.nodup_cons] at nd
    have key : ∀ (ids : List Nat) (js : List (Json F)) (fp : List Nat), Reps h ids js fp → fp.Nodup → ∀ (k x : Nat) (j : Json F),
        ids[k]? = some x → js[k]? = some j → ∃ fp, Rep h x j fp ∧ fp.Nodup := by
      intro ids
      induction ids with
      | nil => intro js fp _ _ k x j h1; simp at h1
      | cons y ids ih =>
        intro js fp r nd k x j h1 h2
        cases r with
        | cons r rs =>
          rw [List.nodup_append] at nd
          cases k with
          | zero =>
            simp at h1 h2
            subst h1; subst h2
            exact ⟨_, r, nd.1⟩
          | succ k => exact ih _ _ rs nd.2.1 k x j (by simpa using h1) (by simpa using h2)
    exact key ids vars fp rs nd.2

/-- C171. For every program and every variable of it: the destructor can be run with room for `d` calls of it at a time if and only if the
value of the variable is not higher than `d`. With less room the outcome is `fuel`: the call that would be one too many. -/
theorem C171_destroy (ss : List (Stmt F)) (vars : List (Json F)) (m : meanings [] ss = some vars) :
    ∃ h ids, run start ss = .ok h ∧ h.cells 0 = some (.arr ids) ∧ ids.length = vars.length ∧
      ∀ (i x d : Nat) (j : Json F), ids[i]? = some x → vars[i]? = some j →
        (height j ≤ d → ∃ h', deleteNode d h x = .ok h') ∧ (d < height j → deleteNode d h x = .error .fuel) := by
  obtain ⟨h, e, inv⟩ := Inv.runs Inv.start m
  obtain ⟨-, ids, h0, hv⟩ := Inv.variable inv
  obtain ⟨ids', h0', len, -⟩ := (Inv.memory inv).values
  obtain rfl : ids = ids' := by rw [h0] at h0'; simpa using h0'
  refine ⟨h, ids, e, h0, len, fun i x d j h1 h2 => ?_⟩
  obtain ⟨fp, r, nd⟩ := hv i x j h1 h2
  exact ⟨fun hd => by obtain ⟨h', e, -⟩ := deleteNode_height d h x j fp r nd hd; exact ⟨h', e⟩,
    fun hd => deleteNode_short d h x j fp r nd hd⟩

/-- C171. The same of the copy constructor, for a copy of the variable: `JsonData y{x};`. -/
theorem C171_copy (ss : List (Stmt F)) (vars : List (Json F)) (m : meanings [] ss = some vars) :
    ∃ h ids, run start ss = .ok h ∧ h.cells 0 = some (.arr ids) ∧ ids.length = vars.length ∧
      ∀ (i x d : Nat) (j : Json F), ids[i]? = some x → vars[i]? = some j →
        (height j ≤ d → ∃ h', copyUnion d (alloc h).1 (alloc h).2 x = .ok h' ∧ Holds h' (alloc h).2 j) ∧
        (d < height j → copyUnion d (alloc h).1 (alloc h).2 x = .error .fuel) := by
  obtain ⟨h, e, inv⟩ := Inv.runs Inv.start m
  obtain ⟨w, ids, h0, hv⟩ := Inv.variable inv
  obtain ⟨ids', h0', len, -⟩ := (Inv.memory inv).values
  obtain rfl : ids = ids' := by rw [h0] at h0'; simpa using h0'
  refine ⟨h, ids, e, h0, len, fun i x d j h1 h2 => ?_⟩
  obtain ⟨fp, r, nd⟩ := hv i x j h1 h2
  have hd : (alloc h).2 ∉ fp := fun c => by have := w.lt (r.live _ c); simp [alloc] at this
  have hl : (alloc h).1.cells (alloc h).2 ≠ none := by simp [alloc, upd]
  refine ⟨fun hj => ?_, fun hj => copyUnion_short d _ _ x j fp (r.alloc w) w.alloc hl hd hj⟩
  obtain ⟨h', new, e, r', -⟩ := copyUnion_height d _ (alloc h).2 x j fp (r.alloc w) w.alloc hl hd hj
  exact ⟨h', e, r'.facts.1⟩

example : meanings [] [.declare .emptyArray, .append [.index 0] [.index 0]] = some [(.arr [.arr []] : Json F)] ∧
    height (.arr [.arr []] : Json F) = 2 := ⟨rfl, rfl⟩

/-- C171. A program of `n + 1` statements, whatever they are, makes no value higher than `2 ^ n`. -/
theorem C171_partial (n : Nat) (ss : List (Stmt F)) (hn : ss.length = n + 1) (vars : List (Json F)) (m : meanings [] ss = some vars)
    (j : Json F) (hj : j ∈ vars) : height j ≤ 2 ^ n := by
  obtain ⟨i, hi⟩ := List.getElem?_of_mem hj
  have h1 := height_mem hi
  cases ss with
  | nil => simp at hn
  | cons s ss =>
    simp only [meanings, Option.bind_eq_some_iff] at m
    obtain ⟨v1, m1, m2⟩ := m
    have h2 := height_meaning m1
    have h3 := height_meanings 0 (by simpa [heights] using h2) m2
    simp only [List.length_cons, Nat.add_right_cancel_iff] at hn
    rw [Nat.zero_add, hn] at h3
    omega

example : meanings [] (.declare .emptyObject :: List.replicate 2 (.touch [.index 0] c!"a")) = some [(.obj [(c!"a", .null)] : Json F)] ∧
    height (.obj [(c!"a", .null)] : Json F) = 2 := ⟨rfl, rfl⟩

/-- An array in an array, `k + 1` of them, the last one empty. -/
def Spec.chain : Nat → Json F
  | 0 => .arr []
  | k + 1 => .arr [chain k]

theorem chain_height : ∀ k, height (chain k : Json F) = k + 1
  | 0 => rfl
  | k + 1 => by simp only [chain, height, heights, chain_height k]; omega

theorem chain_part : ∀ k, part (List.replicate k (.index 0)) (chain k : Json F) = some (.arr [])
  | 0 => rfl
  | k + 1 => by simpa [List.replicate_succ, chain, part] using chain_part k

theorem chain_put (l : Nat) : ∀ k, put (.arr [chain l]) (List.replicate k (.index 0)) (chain k : Json F) = chain (k + 1 + l)
  | 0 => by rw [show 0 + 1 + l = l + 1 by omega]; rfl
  | k + 1 => by
    rw [show k + 1 + 1 + l = (k + 1 + l) + 1 by omega]
    simp [List.replicate_succ, chain, put, chain_put l k]

/-- `auto v = Make(Array);` and then `n` times `v.At(0)...At(0).Append(v);` with as many `At(0)` as it takes to get to the innermost array. -/
def Spec.doubling (n : Nat) : List (Stmt F) :=
  .declare .emptyArray :: (List.range n).map fun i => .append (List.replicate (2 ^ i) (.index 0)) [.index 0]

theorem meanings_append (a b : List (Stmt F)) (vars : List (Json F)) :
    meanings vars (a ++ b) = (meanings vars a).bind fun v => meanings v b := by
  induction a generalizing vars with
  | nil => rfl
  | cons s a ih =>
    simp only [List.cons_append, meanings]
    cases meaning vars s with
    | none => rfl
    | some v => exact ih v

theorem doubling_means : ∀ n, meanings [] (doubling n) = some [(chain (2 ^ n - 1) : Json F)]
  | 0 => rfl
  | n + 1 => by
    have ih := doubling_means n
    have hp : 1 ≤ 2 ^ n := Nat.one_le_two_pow
    have e : (doubling (n + 1) : List (Stmt F)) = doubling n ++ [.append (List.replicate (2 ^ n) (.index 0)) [.index 0]] := by
      simp [doubling, List.range_succ]
    rw [e, meanings_append, ih]
    generalize hk : 2 ^ n - 1 = k
    have e2 : (2 : Nat) ^ n = k + 1 := by omega
    have e3 : (2 : Nat) ^ (n + 1) - 1 = k + 1 + k := by rw [Nat.pow_succ]; omega
    rw [e2, e3]
    simp [meanings, meaning, List.replicate_succ, look, store, part, chain_part, withItem, chain_put]

/-- C171 does not hold: there is no number of calls that is enough. Not only the text of a document can make values high (`C128_fails`,
`C167_stack_fails`): `n` statements `place.Append(v)` after the declaration of `v` make a value that is `2 ^ n` high, the most there can be
(`C171_partial`), and neither its destructor at the end of the scope nor a copy of it get by with fewer calls inside one another. -/
theorem C171_fails (n : Nat) : (doubling n : List (Stmt F)).length = n + 1 ∧ ∃ (h : Heap F) (x : Nat), run start (doubling n) = .ok h ∧
    h.cells 0 = some (.arr [x]) ∧ ∀ d, d < 2 ^ n →
      deleteNode d h x = .error .fuel ∧ copyUnion d (alloc h).1 (alloc h).2 x = .error .fuel := by
  have hp : 1 ≤ 2 ^ n := Nat.one_le_two_pow
  have hh : height (chain (2 ^ n - 1) : Json F) = 2 ^ n := by rw [chain_height]; omega
  refine ⟨by simp [doubling], ?_⟩
  obtain ⟨h, ids, e, h0, len, hd⟩ := C171_destroy _ _ (doubling_means (F := F) n)
  obtain ⟨h', ids', e', h0', -, hc⟩ := C171_copy _ _ (doubling_means (F := F) n)
  obtain rfl : h = h' := by rw [e] at e'; simpa using e'
  obtain rfl : ids = ids' := by rw [h0] at h0'; simpa using h0'
  match ids, len with
  | [x], _ =>
    refine ⟨h, x, e, h0, fun d hlt => ⟨(hd 0 x d _ rfl rfl).2 (by omega), (hc 0 x d _ rfl rfl).2 (by omega)⟩⟩

example : meanings [] (doubling 2) = some [(.arr [.arr [.arr [.arr []]]] : Json F)] := rfl

/-- C171. A document that was parsed is destroyed and copied with no more calls inside one another than the parser made of `ParseValue`:
the result of the parser with room for `d` of them is not higher than `d`. So for every text, one more than it has opening brackets are enough. -/
theorem C171_parsed (ops : FloatOps F) (text : Str) (j : Json F) (e : JsonError) (hp : JsonParser.document ops text = .ok (j, e)) :
    height j ≤ opens text + 1 ∧ ∀ d, d ≠ 0 → JsonParser.documentL ops d text = .ok (j, e) → height j ≤ d := by
  have key : ∀ d, d ≠ 0 → JsonParser.documentL ops d text = .ok (j, e) → height j ≤ d := by
    intro d hd h
    have h2 := JsonParser.documentL_height ops text d _ h
    simp only at h2
    omega
  refine ⟨?_, key⟩
  exact key (opens text + 1) (by omega) (by rw [C128_enough ops text _ (Nat.lt_succ_self _)]; exact hp)

example (ops : FloatOps F) : JsonParser.document ops c!"{}" = .ok (.obj [], .noError) ∧ height (.obj [] : Json F) = 1 ∧ opens c!"{}" = 1 :=
  ⟨rfl, rfl, rfl⟩

end Caitlyn
