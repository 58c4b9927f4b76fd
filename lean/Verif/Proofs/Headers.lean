import Verif.Model.Headers

/-! # Proofs about `#include` -/

namespace Caitlyn.Headers

theorem defined_list {n : Nat} {ic : Bool} (hi : ∀ tu tu' p, read ic n tu p = .ok tu' → ∀ g ∈ tu.defined, g ∈ tu'.defined) :
    ∀ (ps : List Name) (tu tu' : Tu), ps.foldlM (read ic n) tu = .ok tu' → ∀ g ∈ tu.defined, g ∈ tu'.defined
  | [], tu, tu', h, g, hg => by cases h; exact hg
  | p :: ps, tu, tu', h, g, hg => by
    rw [List.foldlM_cons] at h
    cases hr : read ic n tu p with
    | error x => rw [hr] at h; cases h
    | ok t =>
      rw [hr] at h
      exact defined_list hi ps t tu' h g (hi tu t p hr g hg)

theorem defined_one (ic : Bool) : ∀ n tu tu' p, read ic n tu p = .ok tu' → ∀ g ∈ tu.defined, g ∈ tu'.defined
  | 0, tu, tu', p, h => by rw [read] at h; cases h
  | n + 1, tu, tu', p, h => by
    intro g hg
    rw [read] at h
    split at h
    · cases h
    split at h
    · exact defined_list (defined_one ic n) _ _ _ h g hg
    split at h
    · cases h; exact hg
    · rename_i hd x y z w
      cases hr : List.foldlM (read ic n) { tu with defined := y :: tu.defined } _ with
      | error x => rw [hr] at h; cases h
      | ok t =>
        rw [hr] at h
        cases h
        exact defined_list (defined_one ic n) _ _ _ hr g (by simp [hg])

theorem read_defined (ic : Bool) (n : Nat) (ps : List Name) (tu tu' : Tu) (h : ps.foldlM (read ic n) tu = .ok tu') (g : File)
    (hg : g ∈ tu.defined) : g ∈ tu'.defined := defined_list (defined_one ic n) ps tu tu' h g hg

/-- What is needed of a set of names: the files exist, what they include is in the set, stands earlier and has a guard, and different
files have different guards. `ix` is the place of a file. -/
structure Sound (ic : Bool) (G : Name → Prop) (ix : File → Nat) : Prop where
  found : ∀ p, G p → ∃ h, lookup ic p = some h ∧ ix h < 199 ∧
    ∀ q ∈ (includes h), G q ∧ ∃ g, lookup ic q = some g ∧ ix g < ix h ∧ (guard g).isSome
  unique : ∀ p q h g x, G p → G q → lookup ic p = some h → lookup ic q = some g → (guard h) = some x → (guard g) = some x → h = g

section
variable {ic : Bool} {G : Name → Prop} {ix : File → Nat}

/-- The file of a name in the set. -/
def IsFile (ic : Bool) (G : Name → Prop) (h : File) : Prop := ∃ p, G p ∧ lookup ic p = some h

/-- The bodies have been read once each, after those they include. -/
structure Inv (ic : Bool) (G : Name → Prop) (tu : Tu) : Prop where
  nodup : tu.out.Nodup
  files : ∀ h ∈ tu.out, IsFile ic G h ∧ ∃ g ∈ tu.defined, (guard h) = some g
  order : ∀ pre h post, tu.out = pre ++ h :: post → ∀ q ∈ (includes h), ∃ g, lookup ic q = some g ∧ g ∈ pre

/-- Every file that is at most as late as `k` and whose guard is defined has been read. -/
def Done (ic : Bool) (G : Name → Prop) (ix : File → Nat) (k : Nat) (tu : Tu) : Prop :=
  ∀ h, IsFile ic G h → ∀ g, (guard h) = some g → g ∈ tu.defined → ix h ≤ k → h ∈ tu.out

/-- What including does. -/
structure Step (ic : Bool) (G : Name → Prop) (ix : File → Nat) (k : Nat) (tu tu' : Tu) : Prop where
  inv : Inv ic G tu'
  grows : ∀ h ∈ tu.out, h ∈ tu'.out
  below : ∀ h ∈ tu'.out, h ∈ tu.out ∨ ix h ≤ k
  fresh : ∀ h, IsFile ic G h → ∀ g, (guard h) = some g → g ∈ tu'.defined → g ∈ tu.defined ∨ h ∈ tu'.out

theorem Step.done {k l : Nat} {tu tu' : Tu} (s : Step ic G ix l tu tu') (hd : Done ic G ix k tu) : Done ic G ix k tu' := by
  intro h hf g hg hx hk
  rcases s.fresh h hf g hg hx with hy | hy
  · exact s.grows h (hd h hf g hg hy hk)
  · exact hy

theorem Step.refl {tu : Tu} {k : Nat} (h : Inv ic G tu) : Step ic G ix k tu tu :=
  ⟨h, fun _ h => h, fun _ h => .inl h, fun _ _ _ _ h => .inl h⟩

theorem Step.trans {a b c : Tu} {k : Nat} (h : Step ic G ix k a b) (h' : Step ic G ix k b c) : Step ic G ix k a c := by
  refine ⟨h'.inv, fun x hx => h'.grows x (h.grows x hx), fun x hx => ?_, fun x hf g hg hx => ?_⟩
  · rcases h'.below x hx with hy | hy
    · exact h.below x hy
    · exact .inr hy
  · rcases h'.fresh x hf g hg hx with hy | hy
    · rcases h.fresh x hf g hg hy with hz | hz
      · exact .inl hz
      · exact .inr (h'.grows x hz)
    · exact .inr hy

theorem Step.mono {a b : Tu} {k l : Nat} (h : Step ic G ix k a b) (hk : k ≤ l) : Step ic G ix l a b :=
  ⟨h.inv, h.grows, fun x hx => (h.below x hx).imp_right fun hy => Nat.le_trans hy hk, h.fresh⟩

/-- A single include, as it is used in the list below. -/
def Includes (ic : Bool) (G : Name → Prop) (ix : File → Nat) (n : Nat) : Prop :=
  ∀ p h tu, G p → lookup ic p = some h → ix h < n → Inv ic G tu → Done ic G ix (ix h) tu →
    ∃ tu', read ic n tu p = .ok tu' ∧ Step ic G ix (ix h) tu tu' ∧ ((guard h).isSome → h ∈ tu'.out) ∧
      ((guard h) = none → ∀ q ∈ (includes h), ∃ g, lookup ic q = some g ∧ g ∈ tu'.out)

theorem includes_list {n : Nat} (hi : Includes ic G ix n) (k : Nat) (hk : k < n) : ∀ (ps : List Name) (tu : Tu),
    (∀ p ∈ ps, G p ∧ ∃ h, lookup ic p = some h ∧ ix h ≤ k) → Inv ic G tu → Done ic G ix k tu →
    ∃ tu', ps.foldlM (read ic n) tu = .ok tu' ∧ Step ic G ix k tu tu' ∧
      ∀ p ∈ ps, ∃ h, lookup ic p = some h ∧ ((guard h).isSome → h ∈ tu'.out) ∧
        ((guard h) = none → ∀ q ∈ (includes h), ∃ g, lookup ic q = some g ∧ g ∈ tu'.out)
  | [], tu, _, hv, _ => ⟨tu, rfl, .refl hv, by simp⟩
  | p :: ps, tu, hp, hv, hd => by
    obtain ⟨hg, h, hl, hx⟩ := hp p (by simp)
    obtain ⟨t1, e1, s1, m1, m1'⟩ := hi p h tu hg hl (by omega) hv fun x hf g hg hx' hk' => hd x hf g hg hx' (by omega)
    obtain ⟨t2, e2, s2, m2⟩ := includes_list hi k hk ps t1 (fun q hq => hp q (by simp [hq])) s1.inv (s1.done hd)
    refine ⟨t2, ?_, (s1.mono hx).trans s2, ?_⟩
    · rw [List.foldlM_cons, e1]; exact e2
    · intro q hq
      rcases List.mem_cons.mp hq with rfl | hq
      · refine ⟨h, hl, fun hs => s2.grows h (m1 hs), fun hs r hr => ?_⟩
        obtain ⟨g, a, b⟩ := m1' hs r hr
        exact ⟨g, a, s2.grows g b⟩
      · exact m2 q hq

theorem includes_all (hs : Sound ic G ix) : ∀ n, Includes ic G ix n
  | 0 => fun _ _ _ _ _ h => absurd h (by omega)
  | n + 1 => by
    intro p h tu hp hl hx hv hd
    obtain ⟨h', hl', -, hinc⟩ := hs.found p hp
    rw [hl] at hl'; injection hl' with hl'; subst hl'
    have hlist : ∀ t, Inv ic G t → (0 < ix h → Done ic G ix (ix h - 1) t) → ∃ tu', (includes h).foldlM (read ic n) t = .ok tu' ∧
        Step ic G ix (ix h) t tu' ∧ (∀ x ∈ tu'.out, x ∈ t.out ∨ ix x < ix h) ∧
        ∀ q ∈ (includes h), ∃ g, lookup ic q = some g ∧ g ∈ tu'.out := by
      intro t hv hd
      cases hc : (includes h) with
      | nil => exact ⟨t, rfl, .refl hv, fun _ h => .inl h, by simp⟩
      | cons q qs =>
        have h0 : 0 < ix h := by
          obtain ⟨-, g, -, c, -⟩ := hinc q (by simp [hc])
          omega
        rw [← hc]
        obtain ⟨t', e, s, m⟩ := includes_list (includes_all hs n) (ix h - 1) (by omega) (includes h) t (fun q hq => by
          obtain ⟨a, g, b, c, d⟩ := hinc q hq
          exact ⟨a, g, b, by omega⟩) hv (hd h0)
        refine ⟨t', e, s.mono (by omega), fun x hx => (s.below x hx).imp_right fun hy => by omega, fun q hq => ?_⟩
        obtain ⟨g, b, c, -⟩ := m q hq
        obtain ⟨-, g', b', -, d⟩ := hinc q hq
        rw [b] at b'; injection b' with b'; subst b'
        exact ⟨g, b, c d⟩
    rw [read, hl]
    simp only
    cases hg : (guard h) with
    | none =>
      simp only
      obtain ⟨t, e, s, -, m⟩ := hlist tu hv (fun _ x hf g hg hx' hk' => hd x hf g hg hx' (by omega))
      exact ⟨t, e, s, by simp, fun _ => m⟩
    | some g =>
      simp only
      by_cases hdef : g ∈ tu.defined
      · rw [if_pos hdef]
        exact ⟨tu, rfl, .refl hv, fun _ => hd h ⟨p, hp, hl⟩ g hg hdef (Nat.le_refl _), by simp⟩
      · rw [if_neg hdef]
        have hv1 : Inv ic G { tu with defined := g :: tu.defined } :=
          ⟨hv.nodup, fun x hx => ⟨(hv.files x hx).1, by obtain ⟨y, hy, hz⟩ := (hv.files x hx).2; exact ⟨y, by simp [hy], hz⟩⟩, hv.order⟩
        have hsame : ∀ x, IsFile ic G x → (guard x) = some g → x = h := by
          rintro x ⟨q, hq, hlq⟩ hy
          exact hs.unique q p x h g hq hp hlq hl hy hg
        obtain ⟨t, e, s, b, m⟩ := hlist { tu with defined := g :: tu.defined } hv1 (fun h0 x hf y hy hx' hk' => by
          rcases List.mem_cons.mp hx' with rfl | hx'
          · have := hsame x hf hy
            subst this; omega
          · exact hd x hf y hy hx' (by omega))
        rw [e]
        have hnew : h ∉ t.out := by
          intro hmem
          rcases b h hmem with hb | hb
          · obtain ⟨y, hy, hz⟩ := (hv.files h hb).2
            rw [hg] at hz; injection hz with hz; subst hz
            exact hdef hy
          · omega
        have hgd : g ∈ t.defined := by
          exact read_defined ic n _ _ _ e g (by simp)
        refine ⟨{ t with out := t.out ++ [h] }, rfl, ⟨⟨?_, ?_, ?_⟩, ?_, ?_, ?_⟩, by simp, by simp⟩
        · exact List.nodup_append.mpr ⟨s.inv.nodup, by simp, by
            intro x hm y hy; simp at hy; subst hy; rintro rfl; exact hnew hm⟩
        · intro x hx
          rcases List.mem_append.mp hx with hx | hx
          · exact s.inv.files x hx
          · simp at hx; subst hx; exact ⟨⟨p, hp, hl⟩, g, hgd, hg⟩
        · intro pre x post hpp q hq
          rcases List.append_eq_append_iff.mp hpp with ⟨u, e1, e2⟩ | ⟨u, e1, e2⟩
          · cases u with
            | nil =>
              simp at e2 e1
              obtain ⟨rfl, -⟩ := e2
              obtain ⟨f, a, c⟩ := m q hq
              exact ⟨f, a, by rw [e1]; exact c⟩
            | cons y u => simp at e2
          · cases u with
            | nil =>
              simp at e2 e1
              obtain ⟨rfl, -⟩ := e2
              obtain ⟨f, a, c⟩ := m q hq
              exact ⟨f, a, by rw [← e1]; exact c⟩
            | cons y u =>
              simp at e2
              obtain ⟨rfl, -⟩ := e2
              exact s.inv.order pre x u e1 q hq
        · intro x hx; exact List.mem_append_left _ (s.grows x hx)
        · intro x hx
          rcases List.mem_append.mp hx with hx | hx
          · exact s.below x hx
          · simp at hx; subst hx; exact .inr (Nat.le_refl _)
        · intro x hf y hy hx
          rcases s.fresh x hf y hy hx with hz | hz
          · rcases List.mem_cons.mp hz with rfl | hz
            · exact .inr (by rw [hsame x hf hy]; simp)
            · exact .inl hz
          · exact .inr (List.mem_append_left _ hz)

/-- A whole translation unit. -/
theorem translate_ok (hs : Sound ic G ix) (ps : List Name) (hp : ∀ p ∈ ps, G p) :
    ∃ tu, translate ic ps = .ok tu ∧ Inv ic G tu ∧
      ∀ p ∈ ps, ∃ h, lookup ic p = some h ∧ ((guard h).isSome → h ∈ tu.out) ∧
        ((guard h) = none → ∀ q ∈ (includes h), ∃ g, lookup ic q = some g ∧ g ∈ tu.out) := by
  have hv : Inv ic G {} := ⟨by simp, by simp, by simp⟩
  obtain ⟨t, e, s, m⟩ := includes_list (includes_all hs 200) 199 (by omega) ps {} (fun p hx => by
    obtain ⟨h, a, b, -⟩ := hs.found p (hp p hx)
    exact ⟨hp p hx, h, a, by omega⟩) hv (by intro _ _ _ _ h; simp at h)
  exact ⟨t, e, s.inv, m⟩

end
theorem out_list {n : Nat} {ic : Bool} (hi : ∀ tu tu' p, read ic n tu p = .ok tu' → tu.out <+: tu'.out) :
    ∀ (ps : List Name) (tu tu' : Tu), ps.foldlM (read ic n) tu = .ok tu' → tu.out <+: tu'.out
  | [], tu, tu', h => by cases h; exact List.prefix_refl _
  | p :: ps, tu, tu', h => by
    rw [List.foldlM_cons] at h
    cases hr : read ic n tu p with
    | error x => rw [hr] at h; cases h
    | ok t =>
      rw [hr] at h
      exact (hi tu t p hr).trans (out_list hi ps t tu' h)

theorem out_one (ic : Bool) : ∀ n tu tu' p, read ic n tu p = .ok tu' → tu.out <+: tu'.out
  | 0, tu, tu', p, h => by rw [read] at h; cases h
  | n + 1, tu, tu', p, h => by
    rw [read] at h
    split at h
    · cases h
    split at h
    · exact out_list (out_one ic n) _ _ _ h
    split at h
    · cases h; exact List.prefix_refl _
    · rename_i hd x y z w
      cases hr : List.foldlM (read ic n) { tu with defined := y :: tu.defined } _ with
      | error x => rw [hr] at h; cases h
      | ok t =>
        rw [hr] at h
        cases h
        exact (out_list (out_one ic n) _ _ _ hr).trans (List.prefix_append _ _)

/-- Further includes only add bodies at the end. -/
theorem translate_prefix {ic : Bool} {names more : List Name} {tu tu' : Tu} (h : translate ic names = .ok tu)
    (h' : translate ic (names ++ more) = .ok tu') : tu.out <+: tu'.out := by
  unfold translate at h h'
  rw [List.foldlM_append, h] at h'
  exact out_list (out_one ic 200) more tu tu' h'

end Caitlyn.Headers
