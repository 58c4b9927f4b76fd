import Verif.Spec.Classes

/-! # Lemmas for C158 -/

namespace Caitlyn
open Classes Spec.Hier

namespace Hier

theorem classAt_nil (c : Cls) : classAt c [] = some c := by cases c; rfl

mutual
theorem virtualDestructor_iff : (c : Cls) →
    (hasVirtualDestructor c = true ↔ ∃ p d, classAt c p = some d ∧ OwnVirtualDestructor d)
  | .mk n v fns fields bs => by
    rw [hasVirtualDestructor, Bool.or_eq_true, virtualDestructorOf_iff bs]
    constructor
    · rintro (h | ⟨i, p, d, h1, h2⟩)
      · exact ⟨[], _, rfl, h⟩
      · exact ⟨i :: p, d, h1, h2⟩
    · rintro ⟨_ | ⟨i, p⟩, d, h1, h2⟩
      · cases h1
        exact .inl h2
      · exact .inr ⟨i, p, d, h1, h2⟩
theorem virtualDestructorOf_iff : (bs : Bases) →
    (anyVirtualDestructor bs = true ↔ ∃ i p d, classAtOf bs i p = some d ∧ OwnVirtualDestructor d)
  | .nil => by simp [anyVirtualDestructor, classAtOf]
  | .cons pub c bs => by
    rw [anyVirtualDestructor, Bool.or_eq_true, virtualDestructor_iff c, virtualDestructorOf_iff bs]
    constructor
    · rintro (⟨p, d, h1, h2⟩ | ⟨i, p, d, h1, h2⟩)
      · exact ⟨0, p, d, by rwa [classAtOf], h2⟩
      · exact ⟨i + 1, p, d, by rwa [classAtOf], h2⟩
    · rintro ⟨_ | i, p, d, h1, h2⟩
      · exact .inl ⟨p, d, by rwa [classAtOf] at h1, h2⟩
      · exact .inr ⟨i, p, d, by rwa [classAtOf] at h1, h2⟩
end

mutual
theorem polymorphic_iff : (c : Cls) → (isPolymorphic c = true ↔ ∃ p d, classAt c p = some d ∧ OwnVirtual d)
  | .mk n v fns fields bs => by
    rw [isPolymorphic, Bool.or_eq_true, polymorphicOf_iff bs]
    have hv : (v || fns.any (·.kind != .plain)) = true ↔ OwnVirtual (.mk n v fns fields bs) := by
      simp [OwnVirtual]
    rw [hv]
    constructor
    · rintro (h | ⟨i, p, d, h1, h2⟩)
      · exact ⟨[], _, rfl, h⟩
      · exact ⟨i :: p, d, h1, h2⟩
    · rintro ⟨_ | ⟨i, p⟩, d, h1, h2⟩
      · cases h1
        exact .inl h2
      · exact .inr ⟨i, p, d, h1, h2⟩
theorem polymorphicOf_iff : (bs : Bases) → (anyPolymorphic bs = true ↔ ∃ i p d, classAtOf bs i p = some d ∧ OwnVirtual d)
  | .nil => by simp [anyPolymorphic, classAtOf]
  | .cons pub c bs => by
    rw [anyPolymorphic, Bool.or_eq_true, polymorphic_iff c, polymorphicOf_iff bs]
    constructor
    · rintro (⟨p, d, h1, h2⟩ | ⟨i, p, d, h1, h2⟩)
      · exact ⟨0, p, d, by rwa [classAtOf], h2⟩
      · exact ⟨i + 1, p, d, by rwa [classAtOf], h2⟩
    · rintro ⟨_ | i, p, d, h1, h2⟩
      · exact .inl ⟨p, d, by rwa [classAtOf] at h1, h2⟩
      · exact .inr ⟨i, p, d, by rwa [classAtOf] at h1, h2⟩
end

mutual
theorem empty_iff : (c : Cls) → (isEmpty c = true ↔ ∀ p d, classAt c p = some d → d.fields = [] ∧ ¬ OwnVirtual d)
  | .mk n v fns fields bs => by
    rw [isEmpty, Bool.and_eq_true, emptyOf_iff bs]
    have hv : (fields.isEmpty && !v && !fns.any (·.kind != .plain)) = true ↔
        (Cls.mk n v fns fields bs).fields = [] ∧ ¬ OwnVirtual (.mk n v fns fields bs) := by
      simp [OwnVirtual, Cls.fields, and_assoc]
    rw [hv]
    constructor
    · rintro ⟨h, hs⟩ (_ | ⟨i, p⟩) d h1
      · cases h1
        exact h
      · exact hs i p d h1
    · exact fun h => ⟨h [] _ rfl, fun i p d h1 => h (i :: p) d h1⟩
theorem emptyOf_iff : (bs : Bases) →
    (allEmpty bs = true ↔ ∀ i p d, classAtOf bs i p = some d → d.fields = [] ∧ ¬ OwnVirtual d)
  | .nil => by simp [allEmpty, classAtOf]
  | .cons pub c bs => by
    rw [allEmpty, Bool.and_eq_true, empty_iff c, emptyOf_iff bs]
    constructor
    · rintro ⟨h1, h2⟩ (_ | i) p d h
      · exact h1 p d (by rwa [classAtOf] at h)
      · exact h2 i p d (by rwa [classAtOf] at h)
    · exact fun h => ⟨fun p d h1 => h 0 p d (by rwa [classAtOf]), fun i p d h1 => h (i + 1) p d (by rwa [classAtOf])⟩
end

/-- A pure function at place `p` that no class on the way declares. -/
def PureAt (n : Nat) (c : Cls) (p : List Nat) : Prop :=
  ∃ d, classAt c p = some d ∧ DeclaresPure n d ∧ ∀ q r e, p = q ++ r → r ≠ [] → classAt c q = some e → ¬ Declares n e

def PureAtOf (n : Nat) (bs : Bases) (i : Nat) (p : List Nat) : Prop :=
  ∃ d, classAtOf bs i p = some d ∧ DeclaresPure n d ∧ ∀ q r e, p = q ++ r → r ≠ [] → classAtOf bs i q = some e → ¬ Declares n e

mutual
theorem pures_iff (n : Nat) : (c : Cls) → (n ∈ pures c ↔ ∃ p, PureAt n c p)
  | .mk m v fns fields bs => by
    rw [pures, List.mem_append, List.mem_filter, puresOf_iff n bs]
    constructor
    · rintro (h | ⟨⟨i, p, d, h1, h2, h3⟩, h⟩)
      · obtain ⟨f, h1, h2⟩ := List.mem_map.mp h
        obtain ⟨h3, h4⟩ := List.mem_filter.mp h1
        refine ⟨[], _, rfl, ⟨f, h3, h2, by simpa using h4⟩, fun q r e hqr hr => ?_⟩
        obtain ⟨_, h⟩ := List.append_eq_nil_iff.mp hqr.symm
        exact absurd h hr
      · refine ⟨i :: p, d, h1, h2, fun q r e hqr hr he => ?_⟩
        rcases q with _ | ⟨j, q⟩
        · cases he
          simpa [declares, Declares] using h
        · injection hqr with e1 e2
          subst e1
          exact h3 q r e e2 hr he
    · rintro ⟨_ | ⟨i, p⟩, d, h1, h2, h3⟩
      · cases h1
        obtain ⟨f, h4, h5, h6⟩ := h2
        exact .inl (List.mem_map.mpr ⟨f, List.mem_filter.mpr ⟨h4, by simpa using h6⟩, h5⟩)
      · refine .inr ⟨⟨i, p, d, h1, h2, fun q r e hqr hr he => ?_⟩, ?_⟩
        · exact h3 (i :: q) r e (by rw [hqr]; rfl) hr he
        · have := h3 [] (i :: p) _ rfl (by simp) rfl
          simpa [declares, Declares] using this
theorem puresOf_iff (n : Nat) : (bs : Bases) → (n ∈ puresOf bs ↔ ∃ i p, PureAtOf n bs i p)
  | .nil => by simp [puresOf, PureAtOf, classAtOf]
  | .cons pub c bs => by
    rw [puresOf, List.mem_append, pures_iff n c, puresOf_iff n bs]
    constructor
    · rintro (⟨p, h⟩ | ⟨i, p, h⟩)
      · exact ⟨0, p, by simpa only [PureAt, PureAtOf, classAtOf] using h⟩
      · exact ⟨i + 1, p, by simpa only [PureAt, PureAtOf, classAtOf] using h⟩
    · rintro ⟨_ | i, p, h⟩
      · exact .inl ⟨p, by simpa only [PureAt, PureAtOf, classAtOf] using h⟩
      · exact .inr ⟨i, p, by simpa only [PureAt, PureAtOf, classAtOf] using h⟩
end

mutual
theorem places_iff (b : Cls) (p : List Nat) (a : Bool) : (c : Cls) → (q : List Nat) → q = p →
    ((q, a) ∈ places b c ↔ classAt c q = some b ∧ (a = true ↔ Public c q))
  | .mk n v fns fields bs, q, hq => by
    rw [places, List.mem_append]
    rcases q with _ | ⟨i, q⟩
    · have h : ([], a) ∉ placesOf b bs 0 := fun h => by
        obtain ⟨i, q, h, _⟩ := (placesOf_iff b bs 0 [] a).mp h
        cases h
      simp only [h, or_false, classAt, Public, iff_true, Option.some.injEq]
      by_cases hb : b = .mk n v fns fields bs
      · simp [hb]
      · simp [hb, Ne.symm hb]
    · have h : (i :: q, a) ∉ (if b = .mk n v fns fields bs then [(([] : List Nat), true)] else []) := by
        split <;> simp
      simp only [h, false_or, classAt, Public]
      rw [placesOf_iff b bs 0 (i :: q) a]
      constructor
      · rintro ⟨j, r, e, h1, h2⟩
        injection e with e1 e2
        rw [Nat.zero_add] at e1
        subst e1 e2
        exact ⟨h1, h2⟩
      · exact fun h => ⟨i, q, by rw [Nat.zero_add], h⟩
theorem placesOf_iff (b : Cls) : (bs : Bases) → (k : Nat) → (p : List Nat) → (a : Bool) →
    ((p, a) ∈ placesOf b bs k ↔ ∃ i q, p = (k + i) :: q ∧ classAtOf bs i q = some b ∧ (a = true ↔ PublicOf bs i q))
  | .nil, k, p, a => by simp [placesOf, classAtOf]
  | .cons pub c bs, k, p, a => by
    rw [placesOf, List.mem_append, List.mem_map, placesOf_iff b bs (k + 1) p a]
    constructor
    · rintro (⟨⟨q, a'⟩, h, e⟩ | ⟨i, q, h1, h2, h3⟩)
      · obtain ⟨h1, h2⟩ := (places_iff b q a' c q rfl).mp h
        injection e with e1 e2
        refine ⟨0, q, e1.symm, by rwa [classAtOf], ?_⟩
        rw [PublicOf, ← e2, Bool.and_eq_true, h2]
      · exact ⟨i + 1, q, by rw [h1]; congr 1; omega, by rwa [classAtOf], by rwa [PublicOf]⟩
    · rintro ⟨_ | i, q, h1, h2, h3⟩
      · rw [classAtOf] at h2
        rw [PublicOf] at h3
        by_cases hp : Public c q
        · refine .inl ⟨(q, true), (places_iff b q true c q rfl).mpr ⟨h2, by simp [hp]⟩, ?_⟩
          have : a = pub := by
            rw [Bool.eq_iff_iff, h3]
            exact ⟨fun h => h.1, fun h => ⟨h, hp⟩⟩
          rw [h1, this, Bool.and_true, Nat.add_zero]
        · refine .inl ⟨(q, false), (places_iff b q false c q rfl).mpr ⟨h2, by simp [hp]⟩, ?_⟩
          have : a = false := by
            cases a with
            | false => rfl
            | true => exact absurd (h3.mp rfl).2 hp
          rw [h1, this, Bool.and_false, Nat.add_zero]
      · refine .inr ⟨i, q, by rw [h1]; congr 1; omega, by rwa [classAtOf] at h2, by rwa [PublicOf] at h3⟩
end

mutual
theorem places_once (b : Cls) : (c : Cls) → (places b c).Pairwise fun x y => x.1 ≠ y.1
  | .mk n v fns fields bs => by
    rw [places, List.pairwise_append]
    refine ⟨by split <;> simp, placesOf_once b bs 0, fun x hx y hy e => ?_⟩
    obtain ⟨i, q, h, _⟩ := (placesOf_iff b bs 0 y.1 y.2).mp hy
    have : x.1 = [] := by
      split at hx
      · rw [List.mem_singleton.mp hx]
      · cases hx
    rw [← e, this] at h
    cases h
theorem placesOf_once (b : Cls) : (bs : Bases) → (k : Nat) → (placesOf b bs k).Pairwise fun x y => x.1 ≠ y.1
  | .nil, _ => by simp [placesOf]
  | .cons pub c bs, k => by
    rw [placesOf, List.pairwise_append]
    refine ⟨?_, placesOf_once b bs (k + 1), fun x hx y hy e => ?_⟩
    · rw [List.pairwise_map]
      exact (places_once b c).imp fun h e => h (List.cons.inj e).2
    · obtain ⟨z, _, rfl⟩ := List.mem_map.mp hx
      obtain ⟨i, q, h, _⟩ := (placesOf_iff b bs (k + 1) y.1 y.2).mp hy
      rw [← e] at h
      have := (List.cons.inj h).1
      omega
end

theorem mem_places (b c : Cls) (p : List Nat) (a : Bool) :
    (p, a) ∈ places b c ↔ classAt c p = some b ∧ (a = true ↔ Public c p) := places_iff b p a c p rfl

theorem mem_places_of (b c : Cls) (p : List Nat) (h : classAt c p = some b) : ∃ a, (p, a) ∈ places b c := by
  by_cases hp : Public c p
  · exact ⟨true, (mem_places b c p true).mpr ⟨h, by simp [hp]⟩⟩
  · exact ⟨false, (mem_places b c p false).mpr ⟨h, by simp [hp]⟩⟩

theorem upcast_iff (d b : Cls) (p : List Nat) :
    upcast d b = some p ↔ classAt d p = some b ∧ Public d p ∧ ∀ q, classAt d q = some b → q = p := by
  constructor
  · intro h
    unfold upcast at h
    split at h
    · next q e =>
      obtain rfl := Option.some.inj h
      have hm := (mem_places b d q true).mp (by rw [e]; simp)
      refine ⟨hm.1, hm.2.mp rfl, fun r hr => ?_⟩
      obtain ⟨a, ha⟩ := mem_places_of b d r hr
      rw [e] at ha
      exact (Prod.mk.inj (List.mem_singleton.mp ha)).1
    · cases h
  · rintro ⟨h1, h2, h3⟩
    have hm := (mem_places b d p true).mpr ⟨h1, by simp [h2]⟩
    have hall : ∀ x ∈ places b d, x = (p, true) := by
      rintro ⟨q, a⟩ hx
      have := (mem_places b d q a).mp hx
      have hq := h3 q this.1
      subst hq
      rw [Prod.mk.injEq]
      exact ⟨rfl, this.2.mpr h2⟩
    have hone := places_once b d
    unfold upcast
    generalize places b d = l at *
    rcases l with _ | ⟨x, _ | ⟨y, l⟩⟩
    · cases hm
    · rw [hall x (by simp)]
    · rw [hall x (by simp), hall y (by simp)] at hone
      exact absurd rfl ((List.pairwise_cons.mp hone).1 (p, true) (by simp))

mutual
theorem classAt_append : (c : Cls) → (p q : List Nat) → classAt c (p ++ q) = (classAt c p).bind (classAt · q)
  | c, [], q => by simp [classAt_nil]
  | .mk n v fns fields bs, i :: p, q => classAtOf_append bs i p q
theorem classAtOf_append : (bs : Bases) → (i : Nat) → (p q : List Nat) →
    classAtOf bs i (p ++ q) = (classAtOf bs i p).bind (classAt · q)
  | .nil, i, p, q => by simp [classAtOf]
  | .cons _ c _, 0, p, q => by simpa only [classAtOf] using classAt_append c p q
  | .cons _ _ bs, i + 1, p, q => by simpa only [classAtOf] using classAtOf_append bs i p q
end

mutual
theorem classAt_size : (c : Cls) → (p : List Nat) → (d : Cls) → classAt c p = some d → sizeOf d ≤ sizeOf c ∧ (p ≠ [] → sizeOf d < sizeOf c)
  | c, [], d, h => by
    rw [classAt_nil] at h
    cases h
    exact ⟨Nat.le_refl _, fun h => absurd rfl h⟩
  | .mk n v fns fields bs, i :: p, d, h => by
    have := classAtOf_size bs i p d h
    have hs : sizeOf bs < sizeOf (Cls.mk n v fns fields bs) := by simp; omega
    exact ⟨by omega, fun _ => by omega⟩
theorem classAtOf_size : (bs : Bases) → (i : Nat) → (p : List Nat) → (d : Cls) → classAtOf bs i p = some d → sizeOf d < sizeOf bs
  | .nil, i, p, d, h => by simp [classAtOf] at h
  | .cons pub c bs, 0, p, d, h => by
    rw [classAtOf] at h
    have := (classAt_size c p d h).1
    simp
    omega
  | .cons pub c bs, i + 1, p, d, h => by
    rw [classAtOf] at h
    have := classAtOf_size bs i p d h
    simp
    omega
end

theorem baseOf_iff (b d : Cls) : baseOf b d = true ↔ ∃ p, classAt d p = some b := by
  unfold baseOf
  constructor
  · intro h
    cases hp : places b d with
    | nil => rw [hp] at h; cases h
    | cons x l => exact ⟨x.1, ((mem_places b d x.1 x.2).mp (by rw [hp]; simp)).1⟩
  · rintro ⟨p, h⟩
    obtain ⟨a, ha⟩ := mem_places_of b d p h
    cases hp : places b d with
    | nil => rw [hp] at ha; cases ha
    | cons x l => rfl

theorem classAt_self (c : Cls) (p : List Nat) (h : classAt c p = some c) : p = [] := by
  cases p with
  | nil => rfl
  | cons i p => exact absurd ((classAt_size c (i :: p) c h).2 (by simp)) (by omega)

mutual
/-- The subobjects with their places, in the order of `subobjects`. -/
def spots : Cls → List (List Nat × Cls)
  | .mk n v fns fields bs => ([], .mk n v fns fields bs) :: spotsOf bs 0
def spotsOf : Bases → Nat → List (List Nat × Cls)
  | .nil, _ => []
  | .cons _ c bs, i => (spots c).map (fun s => (i :: s.1, s.2)) ++ spotsOf bs (i + 1)
end

mutual
theorem spots_classes : (c : Cls) → (spots c).map Prod.snd = subobjects c
  | .mk n v fns fields bs => by rw [spots, List.map_cons, spotsOf_classes bs 0, subobjects]
theorem spotsOf_classes : (bs : Bases) → (k : Nat) → (spotsOf bs k).map Prod.snd = subobjectsOf bs
  | .nil, _ => rfl
  | .cons pub c bs, k => by
    rw [spotsOf, List.map_append, List.map_map, spotsOf_classes bs (k + 1), subobjectsOf, ← spots_classes c]
    rfl
end

mutual
theorem mem_spots : (c : Cls) → (p : List Nat) → (d : Cls) → ((p, d) ∈ spots c ↔ classAt c p = some d)
  | .mk n v fns fields bs, p, d => by
    rw [spots, List.mem_cons, mem_spotsOf bs 0 p d]
    rcases p with _ | ⟨i, p⟩
    · simp [classAt, eq_comm]
    · simp only [classAt, Nat.zero_add, List.cons.injEq, Prod.mk.injEq, reduceCtorEq, false_and, false_or]
      exact ⟨fun ⟨_, _, ⟨h1, h2⟩, h⟩ => h1 ▸ h2 ▸ h, fun h => ⟨i, p, ⟨rfl, rfl⟩, h⟩⟩
theorem mem_spotsOf : (bs : Bases) → (k : Nat) → (p : List Nat) → (d : Cls) →
    ((p, d) ∈ spotsOf bs k ↔ ∃ i q, p = (k + i) :: q ∧ classAtOf bs i q = some d)
  | .nil, _, _, _ => by simp [spotsOf, classAtOf]
  | .cons pub c bs, k, p, d => by
    rw [spotsOf, List.mem_append, mem_spotsOf bs (k + 1) p d, List.mem_map]
    constructor
    · rintro (⟨⟨q, e⟩, h1, h2⟩ | ⟨i, q, h1, h2⟩)
      · cases h2
        exact ⟨0, q, rfl, by rw [classAtOf]; exact (mem_spots c q e).mp h1⟩
      · exact ⟨i + 1, q, by rw [h1]; congr 1; omega, by rwa [classAtOf]⟩
    · rintro ⟨_ | i, q, h1, h2⟩
      · rw [classAtOf] at h2
        exact .inl ⟨(q, d), (mem_spots c q d).mpr h2, by rw [h1]; rfl⟩
      · rw [classAtOf] at h2
        exact .inr ⟨i, q, by rw [h1]; congr 1; omega, h2⟩
end

mutual
theorem spots_once : (c : Cls) → (spots c).Pairwise fun x y => x.1 ≠ y.1
  | .mk n v fns fields bs => by
    rw [spots]
    refine List.Pairwise.cons (fun y hy => ?_) (spotsOf_once bs 0)
    obtain ⟨i, q, h, _⟩ := (mem_spotsOf bs 0 y.1 y.2).mp hy
    rw [h]
    exact fun h => by cases h
theorem spotsOf_once : (bs : Bases) → (k : Nat) → (spotsOf bs k).Pairwise fun x y => x.1 ≠ y.1
  | .nil, _ => List.Pairwise.nil
  | .cons pub c bs, k => by
    rw [spotsOf, List.pairwise_append]
    refine ⟨List.pairwise_map.mpr ((spots_once c).imp fun h e => h (List.cons.inj e).2), spotsOf_once bs (k + 1), ?_⟩
    intro x hx y hy h
    obtain ⟨s, _, rfl⟩ := List.mem_map.mp hx
    obtain ⟨i, q, hq, _⟩ := (mem_spotsOf bs (k + 1) y.1 y.2).mp hy
    rw [hq] at h
    injection h with h
    omega
end

/-- In a list whose members have different places: those with a property have one place exactly if there is at most one of them. -/
theorem at_most_one {α β : Type} (f : β → Bool) : (l : List (α × β)) → (l.Pairwise fun x y => x.1 ≠ y.1) →
    (((l.map Prod.snd).filter f).length ≤ 1 ↔ ∀ x ∈ l, ∀ y ∈ l, f x.2 = true → f y.2 = true → x.1 = y.1)
  | [], _ => by simp
  | z :: l, h => by
    obtain ⟨h1, h2⟩ := List.pairwise_cons.mp h
    have ih := at_most_one f l h2
    by_cases hz : f z.2 = true
    · rw [List.map_cons, List.filter_cons_of_pos hz, List.length_cons]
      constructor
      · intro hl x hx y hy fx fy
        have he : (l.map Prod.snd).filter f = [] := List.eq_nil_of_length_eq_zero (by omega)
        have hn : ∀ w ∈ l, f w.2 ≠ true := fun w hw hf => by
          have := List.mem_filter.mpr ⟨List.mem_map.mpr ⟨w, hw, rfl⟩, hf⟩
          rw [he] at this
          cases this
        rcases List.mem_cons.mp hx with rfl | hx
        · rcases List.mem_cons.mp hy with rfl | hy
          · rfl
          · exact absurd fy (hn y hy)
        · exact absurd fx (hn x hx)
      · intro hl
        have : (l.map Prod.snd).filter f = [] := by
          rw [List.filter_eq_nil_iff]
          intro b hb fb
          obtain ⟨w, hw, rfl⟩ := List.mem_map.mp hb
          exact h1 w hw (hl z (by simp) w (by simp [hw]) hz fb)
        rw [this]; simp
    · rw [List.map_cons, List.filter_cons_of_neg hz, ih]
      constructor
      · intro hl x hx y hy fx fy
        rcases List.mem_cons.mp hx with rfl | hx
        · exact absurd fx hz
        · rcases List.mem_cons.mp hy with rfl | hy
          · exact absurd fy hz
          · exact hl x hx y hy fx fy
      · exact fun hl x hx y hy => hl x (by simp [hx]) y (by simp [hy])

theorem nodup_snd {α β : Type} : (l : List (α × β)) → (l.Pairwise fun x y => x.1 ≠ y.1) →
    ((l.map Prod.snd).Nodup ↔ ∀ x ∈ l, ∀ y ∈ l, x.2 = y.2 → x.1 = y.1)
  | [], _ => by simp
  | z :: l, h => by
    obtain ⟨h1, h2⟩ := List.pairwise_cons.mp h
    rw [List.map_cons, List.nodup_cons, nodup_snd l h2]
    constructor
    · rintro ⟨hn, hl⟩ x hx y hy e
      rcases List.mem_cons.mp hx with rfl | hx'
      · rcases List.mem_cons.mp hy with rfl | hy
        · rfl
        · exact absurd (List.mem_map.mpr ⟨y, hy, e.symm⟩) hn
      · rcases List.mem_cons.mp hy with rfl | hy
        · exact absurd (List.mem_map.mpr ⟨x, hx', e⟩) hn
        · exact hl x hx' y hy e
    · intro hl
      refine ⟨fun hm => ?_, fun x hx y hy => hl x (by simp [hx]) y (by simp [hy])⟩
      obtain ⟨w, hw, e⟩ := List.mem_map.mp hm
      exact h1 w hw (hl z (by simp) w (by simp [hw]) e.symm)

theorem before_irrefl (p q : List Nat) (h : Before p q) : p ≠ q := by
  induction h with
  | whole i q => simp
  | later p q h => intro e; injection e with e1 _; omega
  | within i h ih => intro e; injection e with _ e2; exact ih e2

mutual
theorem destroyed_mem : (c : Cls) → (p : List Nat) → (p ∈ destroyed c ↔ (classAt c p).isSome = true)
  | .mk n v fns fields bs, p => by
    rw [destroyed, List.mem_cons, destroyedOf_mem bs 0 p]
    rcases p with _ | ⟨i, p⟩
    · simp [classAt]
    · simp only [classAt]
      constructor
      · rintro (h | ⟨j, q, e, h⟩)
        · cases h
        · injection e with e1 e2
          rw [Nat.zero_add] at e1
          subst e1 e2
          exact h
      · exact fun h => .inr ⟨i, p, by rw [Nat.zero_add], h⟩
theorem destroyedOf_mem : (bs : Bases) → (k : Nat) → (p : List Nat) →
    (p ∈ destroyedOf bs k ↔ ∃ i q, p = (k + i) :: q ∧ (classAtOf bs i q).isSome = true)
  | .nil, k, p => by simp [destroyedOf, classAtOf]
  | .cons pub c bs, k, p => by
    rw [destroyedOf, List.mem_append, List.mem_map, destroyedOf_mem bs (k + 1) p]
    constructor
    · rintro (⟨i, q, h1, h2⟩ | ⟨q, h, e⟩)
      · exact ⟨i + 1, q, by rw [h1]; congr 1; omega, by rwa [classAtOf]⟩
      · exact ⟨0, q, e.symm, by rw [classAtOf]; exact (destroyed_mem c q).mp h⟩
    · rintro ⟨_ | i, q, h1, h2⟩
      · exact .inr ⟨q, (destroyed_mem c q).mpr (by rwa [classAtOf] at h2), by rw [h1]; rfl⟩
      · exact .inl ⟨i, q, by rw [h1]; congr 1; omega, by rwa [classAtOf] at h2⟩
end

mutual
theorem destroyed_order : (c : Cls) → (destroyed c).Pairwise Before
  | .mk n v fns fields bs => by
    rw [destroyed, List.pairwise_cons]
    refine ⟨fun p h => ?_, destroyedOf_order bs 0⟩
    obtain ⟨i, q, rfl, _⟩ := (destroyedOf_mem bs 0 p).mp h
    exact .whole _ _
theorem destroyedOf_order : (bs : Bases) → (k : Nat) → (destroyedOf bs k).Pairwise Before
  | .nil, _ => by simp [destroyedOf]
  | .cons pub c bs, k => by
    rw [destroyedOf, List.pairwise_append]
    refine ⟨destroyedOf_order bs (k + 1), ?_, fun p hp q hq => ?_⟩
    · rw [List.pairwise_map]
      exact (destroyed_order c).imp fun h => .within k h
    · obtain ⟨i, p', rfl, _⟩ := (destroyedOf_mem bs (k + 1) p).mp hp
      obtain ⟨q', _, rfl⟩ := List.mem_map.mp hq
      exact .later _ _ (by omega)
end

theorem wholly (c : Cls) : Wholly c (destroyed c) := ⟨destroyed_mem c, destroyed_order c⟩

/-- The state of the pointers. -/
def conc (b : Cls) (o : Owners) : State :=
  ⟨o.slots.map (Option.map fun x => ⟨x.1, x.2, (argument b x.2).getD []⟩), o.gone.map fun x => (x.1, destroyed x.2), o.next⟩

def Fits (b : Cls) (o : Owners) : Prop := ∀ x, some x ∈ o.slots → (argument b x.2).isSome = true

theorem delete_at (b d : Cls) (h : (argument b d).isSome = true) : deleteAt d ((argument b d).getD []) =
    if d = b ∨ hasVirtualDestructor b = true then .ok (destroyed d) else .error .ub := by
  unfold argument at h ⊢
  split at h
  · cases h
  · next ha =>
    rw [if_neg ha]
    obtain ⟨p, hp⟩ := Option.isSome_iff_exists.mp h
    rw [hp, Option.getD_some]
    obtain ⟨h1, _, _⟩ := (upcast_iff d b p).mp hp
    simp only [deleteAt, h1]
    have : p = [] ↔ d = b := by
      constructor
      · rintro rfl
        rw [classAt_nil] at h1
        exact Option.some.inj h1
      · rintro rfl
        exact classAt_self d p h1
    simp only [this]

theorem delete_slot (b : Cls) (o : Owners) (v : Option (Nat × Cls)) (h : ∀ x, v = some x → (argument b x.2).isSome = true) :
    (conc b o).delete (v.map fun x => ⟨x.1, x.2, (argument b x.2).getD []⟩) =
      if ∀ x ∈ v.toList, x.2 = b ∨ hasVirtualDestructor b = true then .ok (conc b { o with gone := o.gone ++ v.toList })
      else .error .ub := by
  cases v with
  | none => simp [State.delete, conc]
  | some x =>
    simp only [Option.map_some, State.delete, delete_at b x.2 (h x rfl), Option.toList_some, List.mem_singleton, forall_eq]
    split
    · simp [conc, bind, Except.bind]
    · rfl

theorem vecGet_conc (b : Cls) (o : Owners) (x : Nat) (v : Option (Nat × Cls)) (h : o.slots[x]? = some v) :
    vecGet (conc b o).slots x = .ok (v.map fun x => ⟨x.1, x.2, (argument b x.2).getD []⟩) := by
  simp only [vecGet, conc, List.getElem?_map, h, Option.map_some]

theorem deletable_append (b : Cls) (o : Owners) (v : Option (Nat × Cls)) (slots : List (Option (Nat × Cls))) (n : Nat)
    (h : Deletable b o) : Deletable b ⟨slots, o.gone ++ v.toList, n⟩ ↔ ∀ x ∈ v.toList, x.2 = b ∨ hasVirtualDestructor b = true := by
  simp only [Deletable, List.mem_append]
  exact ⟨fun h x hx => h x (.inr hx), fun hv x hx => hx.elim (h x) (hv x)⟩

theorem step_sim (b : Cls) (op : Op) (o o' : Owners) (hs : o.step op = some o') (hc : op.compiles b) (hf : Fits b o)
    (hd : Deletable b o) :
    step b (conc b o) op = (if Deletable b o' then .ok (conc b o') else .error .ub) ∧ Fits b o' := by
  have hfit : ∀ (x : Nat) (v : Option (Nat × Cls)), o.slots[x]? = some v → ∀ y : Nat × Cls, v = some y → (argument b y.2).isSome = true :=
    fun x v h y e => hf y (e ▸ List.mem_of_getElem? h)
  have hd' : ∀ s n, Deletable b ⟨s, o.gone, n⟩ := fun s n => hd
  cases op with
  | make d =>
    cases hs
    refine ⟨?_, fun x hx => ?_⟩
    · rw [if_pos (hd' _ _)]
      simp [step, conc]
    · rcases List.mem_append.mp hx with h | h
      · exact hf x h
      · cases List.mem_singleton.mp h
        exact hc d rfl
  | none =>
    cases hs
    refine ⟨?_, fun x hx => ?_⟩
    · rw [if_pos (hd' _ _)]
      simp [step, conc]
    · rcases List.mem_append.mp hx with h | h
      · exact hf x h
      · cases List.mem_singleton.mp h
  | reset x d =>
    simp only [Owners.step, Option.bind_eq_bind, Option.bind_eq_some_iff] at hs
    obtain ⟨v, hv, hs⟩ := hs
    cases hs
    refine ⟨?_, fun y hy => ?_⟩
    · simp only [step, vecGet_conc b o x v hv, bind, Except.bind, delete_slot b o v (hfit x v hv), deletable_append b o v _ _ hd]
      by_cases hx : ∀ x ∈ v.toList, x.2 = b ∨ hasVirtualDestructor b = true
      · rw [if_pos hx, if_pos hx]
        simp [conc]
      · rw [if_neg hx, if_neg hx]
    · rcases List.mem_or_eq_of_mem_set hy with h | h
      · exact hf y h
      · cases h
        exact hc d rfl
  | clear x =>
    simp only [Owners.step, Option.bind_eq_bind, Option.bind_eq_some_iff] at hs
    obtain ⟨v, hv, hs⟩ := hs
    cases hs
    refine ⟨?_, fun y hy => ?_⟩
    · simp only [step, vecGet_conc b o x v hv, bind, Except.bind, delete_slot b o v (hfit x v hv), deletable_append b o v _ _ hd]
      by_cases hx : ∀ x ∈ v.toList, x.2 = b ∨ hasVirtualDestructor b = true
      · rw [if_pos hx, if_pos hx]
        simp [conc]
      · rw [if_neg hx, if_neg hx]
    · rcases List.mem_or_eq_of_mem_set hy with h | h
      · exact hf y h
      · cases h
  | take y =>
    simp only [Owners.step, Option.bind_eq_bind, Option.bind_eq_some_iff] at hs
    obtain ⟨v, hv, hs⟩ := hs
    cases hs
    refine ⟨?_, fun z hz => ?_⟩
    · simp only [step, vecGet_conc b o y v hv, bind, Except.bind]
      rw [if_pos (hd' _ _)]
      simp [conc]
    · rcases List.mem_append.mp hz with h | h
      · rcases List.mem_or_eq_of_mem_set h with h | h
        · exact hf z h
        · cases h
      · exact hfit y v hv z (List.mem_singleton.mp h).symm
  | move x y =>
    simp only [Owners.step, Option.bind_eq_bind, Option.bind_eq_some_iff] at hs
    obtain ⟨v, hv, w, hw, hs⟩ := hs
    by_cases hxy : x = y
    · rw [if_pos hxy] at hs
      cases hs
      simp only [step, vecGet_conc b o x v hv, vecGet_conc b o y w hw, bind, Except.bind, if_pos hxy, if_pos hd]
      exact ⟨trivial, hf⟩
    · rw [if_neg hxy] at hs
      cases hs
      refine ⟨?_, fun z hz => ?_⟩
      · simp only [step, vecGet_conc b o x v hv, vecGet_conc b o y w hw, bind, Except.bind, if_neg hxy,
          delete_slot b o v (hfit x v hv), deletable_append b o v _ _ hd]
        by_cases hx : ∀ x ∈ v.toList, x.2 = b ∨ hasVirtualDestructor b = true
        · rw [if_pos hx, if_pos hx]
          simp [conc]
        · rw [if_neg hx, if_neg hx]
      · rcases List.mem_or_eq_of_mem_set hz with h | h
        · rcases List.mem_or_eq_of_mem_set h with h | h
          · exact hf z h
          · exact hfit y w hw z h.symm
        · cases h
  | leave =>
    simp only [Owners.step, Option.bind_eq_bind, Option.bind_eq_some_iff] at hs
    obtain ⟨v, hv, hs⟩ := hs
    cases hs
    have hl : (conc b o).slots.length = o.slots.length := by simp [conc]
    rw [List.getLast?_eq_getElem?] at hv
    refine ⟨?_, fun z hz => hf z (List.dropLast_subset _ hz)⟩
    simp only [step, hl, vecGet_conc b o _ v hv, bind, Except.bind, delete_slot b o v (hfit _ v hv), deletable_append b o v _ _ hd]
    by_cases hx : ∀ x ∈ v.toList, x.2 = b ∨ hasVirtualDestructor b = true
    · rw [if_pos hx, if_pos hx]
      simp [conc, List.dropLast_eq_take, List.map_take]
    · rw [if_neg hx, if_neg hx]

theorem gone_step (op : Op) (o o' : Owners) (hs : o.step op = some o') : ∃ l, o'.gone = o.gone ++ l := by
  cases op <;> simp only [Owners.step, Option.bind_eq_bind, Option.bind_eq_some_iff] at hs
  case make => cases hs; exact ⟨[], by simp⟩
  case none => cases hs; exact ⟨[], by simp⟩
  case reset => obtain ⟨v, _, hs⟩ := hs; cases hs; exact ⟨_, rfl⟩
  case clear => obtain ⟨v, _, hs⟩ := hs; cases hs; exact ⟨_, rfl⟩
  case take => obtain ⟨v, _, hs⟩ := hs; cases hs; exact ⟨[], by simp⟩
  case move =>
    obtain ⟨v, _, w, _, hs⟩ := hs
    split at hs <;> cases hs
    · exact ⟨[], by simp⟩
    · exact ⟨_, rfl⟩
  case leave => obtain ⟨v, _, hs⟩ := hs; cases hs; exact ⟨_, rfl⟩

theorem gone_run (ops : List Op) (o o' : Owners) (hs : Owners.run ops o = some o') : ∃ l, o'.gone = o.gone ++ l := by
  induction ops generalizing o with
  | nil => cases hs; exact ⟨[], by simp⟩
  | cons op ops ih =>
    obtain ⟨o1, h1, h2⟩ := Option.bind_eq_some_iff.mp hs
    obtain ⟨l, e⟩ := gone_step op o o1 h1
    obtain ⟨m, e'⟩ := ih o1 h2
    exact ⟨l ++ m, by rw [e', e, List.append_assoc]⟩

theorem run_sim (b : Cls) (ops : List Op) (o o' : Owners) (hs : Owners.run ops o = some o') (hc : ∀ op ∈ ops, op.compiles b)
    (hf : Fits b o) (hd : Deletable b o) :
    run b ops (conc b o) = if Deletable b o' then .ok (conc b o') else .error .ub := by
  induction ops generalizing o with
  | nil => cases hs; rw [if_pos hd]; rfl
  | cons op ops ih =>
    obtain ⟨o1, h1, h2⟩ := Option.bind_eq_some_iff.mp hs
    obtain ⟨e, hf'⟩ := step_sim b op o o1 h1 (hc op (by simp)) hf hd
    by_cases hd1 : Deletable b o1
    · rw [if_pos hd1] at e
      simp only [run, e, bind, Except.bind]
      exact ih o1 h2 (fun op h => hc op (by simp [h])) hf' hd1
    · rw [if_neg hd1] at e
      obtain ⟨l, e'⟩ := gone_run ops o1 o' h2
      rw [if_neg fun h => hd1 fun x hx => h x (by rw [e']; simp [hx])]
      simp only [run, e, bind, Except.bind]

end Hier

end Caitlyn
