import Verif.Model.FindCost
import Verif.Lit
import Mathlib.Tactic.Ring

/-! # C170: Find, ReverseFind and Contains take linear time -/

namespace Caitlyn.FindCost

theorem along_found : ∀ {ps s : Str} {n : Nat}, along ps s = (n, .found) → ps.isPrefixOf s = true
  | [], _, _, _ => by simp
  | _ :: _, [], _, h => by simp [along] at h
  | p :: ps, c :: s, n, h => by
    rw [along] at h
    by_cases hc : c = p
    · rw [if_pos hc] at h
      have := along_found (ps := ps) (s := s) (n := (along ps s).1) (by
        rw [← (Prod.mk.inj h).2])
      simp [hc, this]
    · rw [if_neg hc] at h; cases h

theorem along_ended : ∀ {ps s : Str} {n : Nat}, along ps s = (n, .ended) → s.length < ps.length
  | [], _, _, h => by simp [along] at h
  | _ :: _, [], _, _ => by simp
  | p :: ps, c :: s, n, h => by
    rw [along] at h
    by_cases hc : c = p
    · rw [if_pos hc] at h
      have := along_ended (ps := ps) (s := s) (n := (along ps s).1) (by
        rw [← (Prod.mk.inj h).2])
      simpa using this
    · rw [if_neg hc] at h; cases h

theorem along_differs : ∀ {ps s : Str} {n : Nat}, along ps s = (n, .differs) → ps.isPrefixOf s = false
  | [], _, _, h => by simp [along] at h
  | _ :: _, [], _, _ => by simp
  | p :: ps, c :: s, n, h => by
    rw [along] at h
    by_cases hc : c = p
    · rw [if_pos hc] at h
      have := along_differs (ps := ps) (s := s) (n := (along ps s).1) (by
        rw [← (Prod.mk.inj h).2])
      simp only [List.isPrefixOf, this, Bool.and_false]
    · have : (p == c) = false := by simpa using fun e => hc e.symm
      simp [List.isPrefixOf, this]

theorem along_le : ∀ (ps s : Str), (along ps s).1 ≤ ps.length ∧ (along ps s).1 ≤ s.length
  | [], _ => by simp [along]
  | _ :: _, [] => by simp [along]
  | p :: ps, c :: s => by
    have := along_le ps s
    rw [along]
    split <;> simp only [List.length_cons] <;> omega

theorem search_short : ∀ {hay needle : Str}, hay.length < needle.length → Str.search hay needle = hay.length
  | [], needle, h => by
    unfold Str.search
    cases needle <;> simp_all
  | c :: s, needle, h => by
    have hp : needle.isPrefixOf (c :: s) = false := by
      rw [Bool.eq_false_iff]
      intro hp
      have := (List.isPrefixOf_iff_prefix.mp hp).length_le
      omega
    unfold Str.search
    rw [hp]
    simp only [Bool.false_eq_true, if_false, List.length_cons]
    rw [search_short (by simp at h; omega)]

theorem scan_search (p : Chr) (ps : Str) : ∀ s : Str, (scan p ps s).2 = Str.search s (p :: ps)
  | [] => by unfold Str.search; simp [scan]
  | c :: s => by
    have ih := scan_search p ps s
    unfold Str.search
    rw [scan]
    by_cases hc : c = p
    · subst hc
      rw [if_pos rfl]
      have hpre : (c :: ps).isPrefixOf (c :: s) = ps.isPrefixOf s := by simp [List.isPrefixOf]
      rw [hpre]
      rcases h : along ps s with ⟨n, r⟩
      cases r with
      | found => rw [along_found h]; rfl
      | ended =>
        have hs := along_ended h
        have hp : ps.isPrefixOf s = false := by
          rw [Bool.eq_false_iff]
          intro hp
          have := (List.isPrefixOf_iff_prefix.mp hp).length_le
          omega
        rw [hp]
        simp only [Bool.false_eq_true, if_false]
        rw [search_short (by simp; omega)]
      | differs =>
        rw [along_differs h]
        simp only [Bool.false_eq_true, if_false, ih]
    · rw [if_neg hc]
      have : (p == c) = false := by simpa using fun e => hc e.symm
      simp only [List.isPrefixOf, this, Bool.false_and, Bool.false_eq_true, if_false, ih]

theorem searchC_search (hay needle : Str) : (searchC hay needle).2 = Str.search hay needle := by
  cases needle with
  | nil => unfold Str.search; simp [searchC]
  | cons p ps => exact scan_search p ps hay

/-- C170. The counting copies compute what `Contains`, `Find` and `ReverseFind` do. -/
theorem C170_same (s sub : Str) (pos : Nat) :
    (containsC s sub).2 = Str.contains s sub ∧ (findC s sub pos).map Prod.snd = Str.find s sub pos ∧
    (reverseFindC s sub pos).map Prod.snd = Str.reverseFind s sub pos := by
  refine ⟨?_, ?_, ?_⟩
  · simp only [containsC, Str.contains, searchC_search]
  · unfold findC Str.find
    simp only [searchC_search]
    split <;> rfl
  · unfold reverseFindC Str.reverseFind
    simp only [searchC_search]
    split
    · rfl
    · generalize wsub (wsub s.length (if pos ≥ s.length then wsub s.length 1 else pos)) 1 = off
      by_cases h : off > s.length
      · rw [if_pos h, if_pos h]; rfl
      · rw [if_neg h, if_neg h]; rfl

theorem scan_rare (p : Chr) (ps : Str) : ∀ s : Str, (scan p ps s).1 ≤ s.length + s.count p * ps.length
  | [] => by simp [scan]
  | c :: s => by
    have ih := scan_rare p ps s
    have hl := (along_le ps s).1
    rw [scan]
    by_cases hc : c = p
    · subst hc
      rw [if_pos rfl, List.count_cons_self, Nat.add_mul, Nat.one_mul]
      rcases h : along ps s with ⟨n, r⟩
      rw [h] at hl
      cases r <;> simp only [List.length_cons] at hl ⊢ <;> omega
    · rw [if_neg hc, List.count_cons_of_ne hc]
      simp only [List.length_cons]
      omega

/-- C170, the work that is done: at most one comparison for each character of the text, and as many as the pattern has further
characters for each place of the text with the first character of the pattern. In particular, patterns of one character — the only
ones the library itself looks for — are found in linear time, and the product of the lengths is a bound. Missing: a bound that is
linear in the lengths, see `C170_fails`. -/
theorem C170_partial (hay : Str) (p : Chr) (ps : Str) :
    (searchC hay (p :: ps)).1 ≤ hay.length + hay.count p * ps.length ∧ (searchC hay [p]).1 ≤ hay.length ∧
    (searchC hay (p :: ps)).1 ≤ hay.length * (p :: ps).length := by
  have h := scan_rare p ps hay
  refine ⟨h, ?_, ?_⟩
  · have := scan_rare p [] hay
    simpa [searchC] using this
  · have : hay.count p * ps.length ≤ hay.length * ps.length := Nat.mul_le_mul_right _ List.count_le_length
    simp only [searchC, List.length_cons, Nat.mul_add, Nat.mul_one]
    omega

theorem along_all : ∀ {ps s : Str} {n : Nat}, along ps s = (n, .ended) → n = s.length
  | [], _, _, h => by simp [along] at h
  | _ :: _, [], _, h => by cases h; rfl
  | p :: ps, c :: s, n, h => by
    rw [along] at h
    by_cases hc : c = p
    · rw [if_pos hc] at h
      have := along_all (ps := ps) (s := s) (n := (along ps s).1) (by rw [← (Prod.mk.inj h).2])
      rw [← (Prod.mk.inj h).1, this, List.length_cons]
    · rw [if_neg hc] at h; cases h

theorem scan_least (p : Chr) (ps : Str) : ∀ s : Str, (scan p ps s).2 ≤ (scan p ps s).1
  | [] => Nat.le_refl _
  | c :: s => by
    have := scan_least p ps s
    rw [scan]
    split
    · rcases h : along ps s with ⟨n, _ | _ | _⟩
      · exact Nat.zero_le _
      · have := along_all h
        simp only
        omega
      · simp only
        omega
    · simp only
      omega

/-- C170. The bound for a single character is the best: every character before the place found (all of them, if there is none) is compared. Nothing is
compared with an empty pattern. -/
theorem C170_least (hay sub : Str) : (searchC hay []).1 = 0 ∧ (sub ≠ [] → (searchC hay sub).2 ≤ (searchC hay sub).1) := by
  refine ⟨rfl, fun h => ?_⟩
  cases sub with
  | nil => exact absurd rfl h
  | cons p ps => exact scan_least p ps hay

theorem along_run (a b : Chr) (h : a ≠ b) : ∀ m n : Nat,
    along (List.replicate m a ++ [b]) (List.replicate n a) = if m < n then (m + 1, .differs) else (n, .ended)
  | 0, 0 => rfl
  | m + 1, 0 => by simp [List.replicate_succ, along]
  | 0, n + 1 => by simp [List.replicate_succ, along, h]
  | m + 1, n + 1 => by
    have := along_run a b h m n
    simp only [List.replicate_succ, List.cons_append, along, if_true, this, Nat.add_lt_add_iff_right]
    split <;> rfl

theorem scan_run (a b : Chr) (h : a ≠ b) (m : Nat) : ∀ n : Nat,
    scan a (List.replicate m a ++ [b]) (List.replicate (m + 1 + n) a) = ((m + 2) * n + m + 1, m + 1 + n)
  | 0 => by
    have := along_run a b h m m
    simp only [Nat.add_zero, List.replicate_succ, scan, if_true, this, Nat.lt_irrefl, if_false, List.length_replicate,
      Nat.mul_zero, Nat.zero_add]
  | n + 1 => by
    have := along_run a b h m (m + 1 + n)
    rw [if_pos (by omega)] at this
    rw [show m + 1 + (n + 1) = (m + 1 + n) + 1 by omega, List.replicate_succ, scan, if_pos rfl, this]
    simp only [scan_run a b h m n, Nat.mul_add, Nat.mul_one]
    congr 1
    omega

/-- C170 fails, exactly, for every two characters `a` and `b`: `m + 1` times `a` and a `b` are looked for in `n` more `a`s than that with
`(m + 2) n + m + 1` comparisons. -/
theorem C170_run_fails (a b : Chr) (h : a ≠ b) (m n : Nat) :
    searchC (List.replicate (m + 1 + n) a) (a :: (List.replicate m a ++ [b])) = ((m + 2) * n + m + 1, m + 1 + n) :=
  scan_run a b h m n

theorem findC_first (s sub : Str) : ∃ r, findC s sub 0 = .ok ((searchC s sub).1, r) := by
  unfold findC
  rw [if_neg (Nat.not_lt_zero _), List.drop_zero]
  exact ⟨_, rfl⟩

theorem reverseFindC_last (s sub : Str) (hs : 0 < s.length) (hl : sub.length ≤ s.length) :
    ∃ r, reverseFindC s sub (s.length - 1) = .ok ((searchC s.reverse sub.reverse).1, r) := by
  have e : wsub (wsub s.length (s.length - 1)) 1 = 0 := by
    unfold wsub twoPow64
    omega
  unfold reverseFindC
  rw [if_neg (by omega)]
  simp only
  rw [if_neg (show ¬ s.length - 1 ≥ s.length by omega), e, if_neg (Nat.not_lt_zero _), List.drop_zero]
  exact ⟨_, rfl⟩

/-- C170 fails: for no number `k` are at most `k` comparisons made for each character of the text and the pattern, neither by
`Contains` nor by `Find` nor by `ReverseFind`. (`KMP` of the same library makes at most two, see C126.) -/
theorem C170_fails (k : Nat) :
    ∃ s sub : Str, k * (s.length + sub.length) < (containsC s sub).1 ∧
      (∃ n r, findC s sub 0 = .ok (n, r) ∧ k * (s.length + sub.length) < n) ∧
      ∃ n r, reverseFindC s sub.reverse (s.length - 1) = .ok (n, r) ∧ k * (s.length + sub.length) < n := by
  have hab : (⟨[0x61]⟩ : Chr) ≠ ⟨[0x62]⟩ := by decide
  generalize (⟨[0x61]⟩ : Chr) = a at hab
  generalize (⟨[0x62]⟩ : Chr) = b at hab
  have h := C170_run_fails a b hab (3 * k) (3 * k + 1)
  have hlt : k * ((3 * k + 1 + (3 * k + 1)) + (3 * k + 2)) < (3 * k + 2) * (3 * k + 1) + 3 * k + 1 := by
    generalize hq : k * k = q
    have e1 : k * ((3 * k + 1 + (3 * k + 1)) + (3 * k + 2)) = 9 * q + 4 * k := by rw [← hq]; ring
    have e2 : (3 * k + 2) * (3 * k + 1) = 9 * q + 9 * k + 2 := by rw [← hq]; ring
    omega
  have hs : (List.replicate (3 * k + 1 + (3 * k + 1)) a).length = 3 * k + 1 + (3 * k + 1) := List.length_replicate
  have hp : (a :: (List.replicate (3 * k) a ++ [b])).length = 3 * k + 2 := by simp
  refine ⟨List.replicate (3 * k + 1 + (3 * k + 1)) a, a :: (List.replicate (3 * k) a ++ [b]), ?_, ?_, ?_⟩
  · rw [hs, hp, containsC, h]
    exact hlt
  · obtain ⟨r, hr⟩ := findC_first (List.replicate (3 * k + 1 + (3 * k + 1)) a) (a :: (List.replicate (3 * k) a ++ [b]))
    rw [h] at hr
    exact ⟨_, r, hr, by rw [hs, hp]; exact hlt⟩
  · obtain ⟨r, hr⟩ := reverseFindC_last (List.replicate (3 * k + 1 + (3 * k + 1)) a)
      (a :: (List.replicate (3 * k) a ++ [b])).reverse (by rw [hs]; omega) (by
        rw [List.length_reverse, hs, hp]; omega)
    rw [List.reverse_reverse, List.reverse_replicate, h] at hr
    exact ⟨_, r, hr, by rw [hs, hp]; exact hlt⟩

/-- An ordinary search. -/
example : searchC c!"the cat sat" c!"at" = (7, 5) := by decide +kernel
example : searchC c!"aaaaaaaa" c!"aaab" = (23, 8) := by decide +kernel

end Caitlyn.FindCost
