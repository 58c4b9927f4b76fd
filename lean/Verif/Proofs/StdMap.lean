import Verif.Model.StdMap
import Verif.Proofs.StrOrder

/-! # Helper lemmas: ordered maps, the order of all strings -/

namespace Caitlyn

/-- A strict total order given by a comparison function. -/
structure StrictTotal (lt : K → K → Bool) : Prop where
  irrefl : ∀ a, lt a a = false
  trans : ∀ a b c, lt a b = true → lt b c = true → lt a c = true
  total : ∀ a b, a ≠ b → lt a b = true ∨ lt b a = true

theorem StrictTotal.asymm {lt : K → K → Bool} (h : StrictTotal lt) (a b : K) (hab : lt a b = true) : lt b a = false := by
  cases e : lt b a
  · rfl
  · have := h.trans a b a hab e
    rw [h.irrefl] at this; cases this

theorem StrictTotal.eq {lt : K → K → Bool} (h : StrictTotal lt) (a b : K) (h1 : lt a b = false) (h2 : lt b a = false) :
    a = b := by
  apply Classical.byContradiction
  intro hne
  rcases h.total a b hne with e | e
  · rw [h1] at e; cases e
  · rw [h2] at e; cases e

theorem bytes_strictTotal : StrictTotal Chr.bytesLt where
  irrefl := Chr.bytesLt_irrefl
  total := Chr.bytesLt_total
  trans := by
    intro a b c h1 h2
    rw [Chr.bytesLt_iff] at *
    exact List.lt_trans h1 h2

theorem chr_strictTotal : StrictTotal Chr.lt where
  irrefl a := bytes_strictTotal.irrefl a.data
  trans a b c := bytes_strictTotal.trans a.data b.data c.data
  total a b h := bytes_strictTotal.total a.data b.data (fun e => h (by cases a; cases b; simp_all))

theorem str_strictTotal : StrictTotal Str.lt where
  irrefl a := by
    induction a with
    | nil => rfl
    | cons c a ih => simp [Str.lt, chr_strictTotal.irrefl, ih]
  total a := by
    induction a with
    | nil =>
      intro b h
      cases b with
      | nil => exact absurd rfl h
      | cons => left; rfl
    | cons c a ih =>
      intro b h
      cases b with
      | nil => right; rfl
      | cons d b =>
        simp only [Str.lt]
        by_cases hcd : c = d
        · subst hcd
          simp only [chr_strictTotal.irrefl, Bool.false_eq_true, if_false]
          exact ih b (fun e => h (by rw [e]))
        · rcases chr_strictTotal.total c d hcd with e | e
          · left; simp [e]
          · right; simp [e]
  trans a := by
    induction a with
    | nil =>
      intro b c h1 h2
      cases c with
      | nil => cases b <;> simp [Str.lt] at h2
      | cons => rfl
    | cons x a ih =>
      intro b c h1 h2
      cases b with
      | nil => simp [Str.lt] at h1
      | cons y b =>
        cases c with
        | nil => simp [Str.lt] at h2
        | cons z c =>
          simp only [Str.lt] at *
          by_cases hxy : x.lt y = true
          · by_cases hyz : y.lt z = true
            · simp [chr_strictTotal.trans x y z hxy hyz]
            · by_cases hzy : z.lt y = true
              · simp [hyz, hzy] at h2
              · have := chr_strictTotal.eq y z (by simpa using hyz) (by simpa using hzy)
                subst this
                simp [hxy]
          · by_cases hyx : y.lt x = true
            · simp [hxy, hyx] at h1
            · have := chr_strictTotal.eq x y (by simpa using hxy) (by simpa using hyx)
              subst this
              simp only [chr_strictTotal.irrefl, Bool.false_eq_true, if_false] at h1
              by_cases hyz : x.lt z = true
              · simp [hyz]
              · by_cases hzy : z.lt x = true
                · simp [hyz, hzy] at h2
                · simp only [hyz, hzy] at h2 ⊢
                  exact ih b c h1 (by simpa using h2)

namespace StdMap

/-- The keys are in strictly ascending order. -/
def Sorted (lt : K → K → Bool) (m : List (K × V)) : Prop := m.Pairwise fun a b => lt a.1 b.1 = true

/-- The value of a key. -/
def lookup [DecidableEq K] (m : List (K × V)) (k : K) : Option V := (m.find? fun e => e.1 = k).map (·.2)

theorem upsert_keys {lt : K → K → Bool} (hlt : StrictTotal lt) (k : K) (f : Option V → V) (m : List (K × V)) (e : K × V) :
    e ∈ upsert lt k f m → e.1 = k ∨ e ∈ m := by
  induction m with
  | nil => intro h; simp [upsert] at h; exact .inl (by rw [h])
  | cons a m ih =>
    obtain ⟨k', v⟩ := a
    intro h
    unfold upsert at h
    split at h
    · rcases List.mem_cons.mp h with h | h
      · exact .inl (by rw [h])
      · exact .inr h
    · split at h
      · rcases List.mem_cons.mp h with h | h
        · exact .inr (by rw [h]; simp)
        · exact (ih h).imp_right (fun h => by simp [h])
      · rename_i h1 h2
        rcases List.mem_cons.mp h with h | h
        · left; rw [h]; exact (hlt.eq k k' (by simpa using h1) (by simpa using h2)).symm
        · exact .inr (by simp [h])

theorem upsert_sorted {lt : K → K → Bool} (hlt : StrictTotal lt) (k : K) (f : Option V → V) (m : List (K × V))
    (h : Sorted lt m) : Sorted lt (upsert lt k f m) := by
  induction m with
  | nil => simp [upsert, Sorted]
  | cons a m ih =>
    obtain ⟨k', v⟩ := a
    obtain ⟨h1, h2⟩ := List.pairwise_cons.mp h
    unfold upsert
    split
    · rename_i hk
      refine List.pairwise_cons.mpr ⟨fun e he => ?_, h⟩
      rcases List.mem_cons.mp he with e | he
      · rw [e]; exact hk
      · exact hlt.trans _ _ _ hk (h1 e he)
    · split
      · rename_i hk
        refine List.pairwise_cons.mpr ⟨fun e he => ?_, ih h2⟩
        rcases upsert_keys hlt k f m e he with e' | he
        · rw [e']; exact hk
        · exact h1 e he
      · exact List.pairwise_cons.mpr ⟨h1, h2⟩

theorem lookup_none_of_lt [DecidableEq K] {lt : K → K → Bool} (hlt : StrictTotal lt) (k : K) (m : List (K × V))
    (h : ∀ e ∈ m, lt k e.1 = true) : lookup m k = none := by
  unfold lookup
  rw [List.find?_eq_none.mpr]
  · rfl
  · intro e he hk
    have := h e he
    rw [of_decide_eq_true hk, hlt.irrefl] at this
    cases this

theorem lookup_upsert [DecidableEq K] {lt : K → K → Bool} (hlt : StrictTotal lt) (k : K) (f : Option V → V) (m : List (K × V))
    (h : Sorted lt m) (j : K) :
    lookup (upsert lt k f m) j = if j = k then some (f (lookup m k)) else lookup m j := by
  induction m with
  | nil =>
    by_cases hj : j = k
    · subst hj; simp [upsert, lookup]
    · simp [upsert, lookup, hj, Ne.symm hj]
  | cons a m ih =>
    obtain ⟨k', v⟩ := a
    obtain ⟨h1, h2⟩ := List.pairwise_cons.mp h
    unfold upsert
    split
    · rename_i hk
      have hn : lookup ((k', v) :: m) k = none := by
        apply lookup_none_of_lt hlt
        intro e he
        rcases List.mem_cons.mp he with e | he
        · rw [e]; exact hk
        · exact hlt.trans _ _ _ hk (h1 e he)
      rw [hn]
      by_cases hj : j = k
      · subst hj; simp [lookup]
      · simp [lookup, hj, Ne.symm hj]
    · split
      · rename_i hk
        have hne : k' ≠ k := by rintro rfl; rw [hlt.irrefl] at hk; cases hk
        have ih := ih h2
        unfold lookup at ih ⊢
        by_cases hj : j = k'
        · subst hj
          simp [hne]
        · simp only [List.find?_cons, decide_eq_false (Ne.symm hj), decide_eq_false hne]
          exact ih
      · rename_i hk1 hk2
        have := hlt.eq k k' (by simpa using hk1) (by simpa using hk2)
        subst this
        by_cases hj : j = k
        · subst hj; simp [lookup]
        · simp [lookup, hj, Ne.symm hj]

theorem getMapKeys_eq (m : List (K × V)) : getMapKeys m = m.map Prod.fst := by
  have : ∀ (m : List (K × V)) (acc : List K), m.foldl (fun keys e => keys ++ [e.1]) acc = acc ++ m.map Prod.fst := by
    intro m
    induction m with
    | nil => intro acc; simp
    | cons a m ih => intro acc; simp [ih]
  exact (this m []).trans (List.nil_append _)

theorem getMapValues_eq (m : List (K × V)) : getMapValues m = m.map Prod.snd := by
  have : ∀ (m : List (K × V)) (acc : List V), m.foldl (fun vs e => vs ++ [e.2]) acc = acc ++ m.map Prod.snd := by
    intro m
    induction m with
    | nil => intro acc; simp
    | cons a m ih => intro acc; simp [ih]
  exact (this m []).trans (List.nil_append _)

end StdMap
end Caitlyn
