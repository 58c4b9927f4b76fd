import Verif.Model.Random
import Mathlib.Data.Finset.Card
import Mathlib.Data.Finset.Dedup

/-! # C157: numbers drawn one after the other -/

namespace Caitlyn
open Rand Cmp

/-- What a program sees that draws a number of the same type and range at each of these readings of the clock. Every call makes
its own engine from the clock's reading (Random.h:36, 43, 50, 57, 64, 71). -/
def Spec.drawn (engine : Nat → Nat) (ty : IntTy) (a b : Int) (clocks : List Nat) : List (Res Int) :=
  clocks.map fun t => random engine t ty (some a) (some b)

/-- Calls with the readings of the clock and the results: no reading has two results. -/
def Spec.Consistent {α : Type} (calls : List (Nat × α)) : Prop := ∀ c ∈ calls, ∀ d ∈ calls, c.1 = d.1 → c.2 = d.2

theorem random_of_engine (engine : Nat → Nat) (t : Nat) (ty : IntTy) (a b v : Int) (h1 : a ≤ v) (h2 : v ≤ b)
    (he : engine t = (v - a).toNat) : random engine t ty (some a) (some b) = .ok v := by
  simp only [random, uniformInt, Option.getD_some, if_pos (show a ≤ b by omega), he]
  rw [Int.toNat_of_nonneg (by omega), Int.emod_eq_of_lt (by omega) (by omega)]
  congr 1
  omega

/-- C157, exactly: a sequence of results within the range can occur, for some engine, if and only if calls at the same reading of the
clock have the same result. -/
theorem C157_exact_fails (ty : IntTy) (a b : Int) (calls : List (Nat × Int)) (h : ∀ c ∈ calls, a ≤ c.2 ∧ c.2 ≤ b) :
    (∃ engine, Spec.drawn engine ty a b (calls.map Prod.fst) = calls.map fun c => .ok c.2) ↔ Spec.Consistent calls := by
  constructor
  · rintro ⟨engine, he⟩ c hc d hd e
    have hf : ∀ c ∈ calls, random engine c.1 ty (some a) (some b) = .ok c.2 := by
      simp only [Spec.drawn, List.map_map] at he
      exact fun c hc => List.map_inj_left.mp he c hc
    have h1 := hf c hc
    rw [e, hf d hd] at h1
    exact (Except.ok.inj h1).symm
  · intro hc
    refine ⟨fun t => ((((calls.find? fun c => c.1 = t).map Prod.snd).getD a) - a).toNat, ?_⟩
    simp only [Spec.drawn, List.map_map]
    refine List.map_congr_left fun c hm => ?_
    simp only [Function.comp_apply]
    refine random_of_engine _ _ ty a b c.2 (h c hm).1 (h c hm).2 ?_
    cases hf : calls.find? fun d => decide (d.1 = c.1) with
    | none => exact absurd (decide_eq_true rfl) (List.find?_eq_none.mp hf c hm)
    | some d =>
      have h1 : d.1 = c.1 := by simpa using List.find?_some hf
      rw [Option.map_some, Option.getD_some, hc d (List.mem_of_find?_eq_some hf) c hm h1]

/-- C157 holds if the clock advances between all calls: then every sequence of results within the range can occur. -/
theorem C157_partial (ty : IntTy) (a b : Int) (calls : List (Nat × Int)) (h : ∀ c ∈ calls, a ≤ c.2 ∧ c.2 ≤ b)
    (ht : (calls.map Prod.fst).Nodup) :
    ∃ engine, Spec.drawn engine ty a b (calls.map Prod.fst) = calls.map fun c => .ok c.2 :=
  (C157_exact_fails ty a b calls h).mpr fun c hc d hd e => by
    rw [List.inj_on_of_nodup_map ht hc hd e]

/-- C157 fails if the clock does not advance between the calls: all of them give the same number, whatever the engine. -/
theorem C157_same_tick_fails (engine : Nat → Nat) (ty : IntTy) (a b : Int) (t n : Nat) (hab : a ≤ b) :
    ∃ v, a ≤ v ∧ v ≤ b ∧ Spec.drawn engine ty a b (List.replicate n t) = List.replicate n (.ok v) := by
  have h1 := Int.emod_nonneg (engine t : Int) (show b - a + 1 ≠ 0 by omega)
  have h2 := Int.emod_lt_of_pos (engine t : Int) (show 0 < b - a + 1 by omega)
  refine ⟨a + (engine t : Int) % (b - a + 1), by omega, by omega, ?_⟩
  rw [Spec.drawn, List.map_replicate]
  simp only [random, uniformInt, Option.getD_some, if_pos hab]

/-- So two dice thrown in the same tick show the same face for every engine, and no two faces can be told apart. -/
theorem C157_dice_fails (engine : Nat → Nat) (t : Nat) (x y : Int) (ty : IntTy) :
    Spec.drawn engine ty 1 6 [t, t] = [.ok x, .ok y] → x = y := by
  intro h
  simp only [Spec.drawn, List.map_cons, List.map_nil] at h
  injection h with h1 h2
  injection h2 with h2 _
  rw [h1] at h2
  exact Except.ok.inj h2

/-- C157: a program gets no more different numbers than the clock had different readings. -/
theorem C157_count_fails (engine : Nat → Nat) (ty : IntTy) (a b : Int) (clocks : List Nat) (vs : List Int)
    (h : Spec.drawn engine ty a b clocks = vs.map .ok) : vs.toFinset.card ≤ clocks.toFinset.card := by
  let f : Res Int → Int := fun r => match r with | .ok v => v | .error _ => 0
  have hv : vs = clocks.map fun t => f (random engine t ty (some a) (some b)) := by
    have := congrArg (List.map f) h
    rw [Spec.drawn, List.map_map, List.map_map, show f ∘ Except.ok = id from rfl, List.map_id] at this
    exact this.symm
  have hi : vs.toFinset = clocks.toFinset.image fun t => f (random engine t ty (some a) (some b)) := by
    rw [hv]
    ext x
    simp
  rw [hi]
  exact Finset.card_image_le

/-- C157 for `RandomBoolean`, exactly: if both outcomes are possible for the percentage, then a sequence of flips can occur if and only
if flips at the same reading of the clock are the same. -/
theorem C157_flips_fails (p : Dbl) (e1 e2 : Nat → Nat) (t1 t2 : Nat) (h1 : randomBoolean e1 t1 p = .ok true)
    (h2 : randomBoolean e2 t2 p = .ok false) (calls : List (Nat × Bool)) :
    (∃ engine, ∀ c ∈ calls, randomBoolean engine c.1 p = .ok c.2) ↔ Spec.Consistent calls := by
  constructor
  · rintro ⟨engine, hf⟩ c hc d hd e
    have h := hf c hc
    rw [e, hf d hd] at h
    exact (Except.ok.inj h).symm
  · intro hc
    refine ⟨fun t => if ((calls.find? fun c => c.1 = t).map Prod.snd).getD true then e1 t1 else e2 t2, fun c hm => ?_⟩
    have hf : ((calls.find? fun d => d.1 = c.1).map Prod.snd).getD true = c.2 := by
      cases hf : calls.find? fun d => decide (d.1 = c.1) with
      | none => exact absurd (decide_eq_true rfl) (List.find?_eq_none.mp hf c hm)
      | some d =>
        have h1 : d.1 = c.1 := by simpa using List.find?_some hf
        rw [Option.map_some, Option.getD_some, hc d (List.mem_of_find?_eq_some hf) c hm h1]
    simp only [randomBoolean, hf]
    rcases c with ⟨t, _ | _⟩
    · simpa [randomBoolean] using h2
    · simpa [randomBoolean] using h1

/-- The default percentage, `0.5`, allows both outcomes. -/
example : randomBoolean (fun _ => 0) 0 (.finite false 1 (-1)) = .ok true ∧
    randomBoolean (fun _ => 2 ^ 52) 0 (.finite false 1 (-1)) = .ok false := by decide

example : ∃ engine, Spec.drawn engine ⟨true, 32⟩ 1 6 [5, 5, 7] = [.ok 2, .ok 2, .ok 6] :=
  (C157_exact_fails ⟨true, 32⟩ 1 6 [(5, 2), (5, 2), (7, 6)] (by decide)).mpr (by unfold Spec.Consistent; decide)

example : ¬ ∃ engine, Spec.drawn engine ⟨true, 32⟩ 1 6 [5, 5, 7] = [.ok 2, .ok 3, .ok 6] := fun h =>
  absurd ((C157_exact_fails ⟨true, 32⟩ 1 6 [(5, 2), (5, 3), (7, 6)] (by decide)).mp h) (by unfold Spec.Consistent; decide)

end Caitlyn
