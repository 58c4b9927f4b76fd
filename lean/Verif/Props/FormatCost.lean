import Verif.Proofs.FormatCost
import Verif.Lit

/-! # C176: Format takes linear time -/

namespace Caitlyn
namespace FormatCost
open Format Spec

/-- The number of characters of all arguments. -/
def total (args : List Str) : Nat := (args.map List.length).sum

theorem before_eq (args : List Str) : (args.map fun a => 2 * a.length).sum = 2 * total args := by
  unfold total
  induction args with
  | nil => rfl
  | cons a t ih => simp only [List.map_cons, List.sum_cons, ih]; omega

theorem after_ok {l : Loop} {steps : Nat} {bytes out : List UInt8} (h : (l.after steps bytes).result = .ok out) :
    ∃ o, l.result = .ok o := by
  simp only [Loop.after] at h
  cases hr : l.result with
  | error e => rw [hr] at h; cases h
  | ok o => exact ⟨o, rfl⟩

theorem loop_ge (args : List Str) : ∀ (n : Nat) (s : Str) (auto : Nat) (out : List UInt8), (loopC args n s auto).result = .ok out →
    s.length + (loopC args n s auto).written ≤ (loopC args n s auto).steps
  | 0, _, _, _, h => by rw [loopC] at h; cases h
  | n + 1, [], _, _, _ => by rw [loopC]; simp
  | n + 1, c :: rest, auto, out, h => by
    have step : ∀ (t : Str) (a k : Nat) (bytes : List UInt8), ((loopC args n t a).after k bytes).result = .ok out →
        (c :: rest).length ≤ t.length + k →
        (c :: rest).length + ((loopC args n t a).after k bytes).written ≤ ((loopC args n t a).after k bytes).steps := by
      intro t a k bytes h1 h2
      obtain ⟨o, ho⟩ := after_ok h1
      have := loop_ge args n t a o ho
      simp only [Loop.after]
      omega
    rw [loopC] at h ⊢
    by_cases hc : c = ⟨b!"{"⟩
    · simp only [if_pos hc] at h ⊢
      by_cases h2 : rest.head? = some ⟨b!"{"⟩
      · simp only [if_pos h2] at h ⊢
        exact step _ _ _ _ h (by simp only [List.length_drop, List.length_cons]; omega)
      · simp only [if_neg h2] at h ⊢
        by_cases hk : (FindCost.searchC (c :: rest) c!"}").2 = (c :: rest).length
        · rw [if_pos hk] at h; cases h
        · rw [if_neg hk] at h ⊢
          cases hsub : Str.substring (c :: rest) 1 ((FindCost.searchC (c :: rest) c!"}").2 - 1) with
          | error e => rw [hsub] at h; cases h
          | ok spec =>
            rw [hsub] at h
            simp only at h ⊢
            rcases hp : placeholderC args auto spec with ⟨m, _ | ⟨bytes, a⟩⟩
            · rw [hp] at h; cases h
            · rw [hp] at h
              simp only at h ⊢
              refine step _ _ _ _ h ?_
              have hl : spec.length = min ((FindCost.searchC (c :: rest) c!"}").2 - 1) rest.length := by
                unfold Str.substring at hsub
                split at hsub
                · cases hsub
                · cases hsub
                  simp only [List.drop_succ_cons, List.drop_zero, List.length_take, List.length_cons]
                  omega
              simp only [List.length_drop, List.length_cons, cutting]
              omega
    · simp only [if_neg hc] at h ⊢
      by_cases hd : c = ⟨b!"}"⟩
      · simp only [if_pos hd] at h ⊢
        by_cases h2 : rest.head? = some ⟨b!"}"⟩
        · simp only [if_pos h2] at h ⊢
          exact step _ _ _ _ h (by simp only [List.length_drop, List.length_cons]; omega)
        · rw [if_neg h2] at h; cases h
      · simp only [if_neg hd] at h ⊢
        exact step _ _ _ _ h (by simp only [List.length_cons]; omega)

theorem loop_plain (args : List Str) : ∀ (n : Nat) (s : Str) (auto : Nat), s.length < n →
    (∀ c ∈ s, c ≠ ⟨b!"{"⟩ ∧ c ≠ ⟨b!"}"⟩) →
    (loopC args n s auto).steps = 4 * s.length + (Str.str s).length + 1 ∧ (loopC args n s auto).result = .ok (Str.str s)
  | 0, _, _, h, _ => absurd h (Nat.not_lt_zero _)
  | n + 1, [], _, _, _ => by rw [loopC]; exact ⟨rfl, rfl⟩
  | n + 1, c :: rest, auto, h, hs => by
    obtain ⟨h1, h2⟩ := loop_plain args n rest auto (by simp only [List.length_cons] at h; omega)
      fun d hd => hs d (List.mem_cons_of_mem _ hd)
    have e : Str.str (c :: rest) = c.printed ++ Str.str rest := by simp [Str.str]
    rw [loopC, if_neg (hs c (by simp)).1, if_neg (hs c (by simp)).2, e]
    simp only [Loop.after, h1, h2, List.length_append, List.length_cons]
    exact ⟨by omega, rfl⟩

end FormatCost
open FormatCost Format Spec

/-- C176. The copies of the model that count compute what the model computes, for all templates and arguments, with exceptions and undefined
behaviour. -/
theorem C176_same (formatter : Str) (args : List Str) : (formatC formatter args).result = format formatter args := by
  unfold formatC format
  rw [← loop_same]
  simp only
  cases (loopC args (formatter.length + 1) formatter 0).result <;> rfl

/-- C176 holds: whatever the template and the arguments (of characters, without zero), and whether or not there is an exception, at most 26 steps
are made for each character of the template, each character of the arguments and each byte written. -/
theorem C176_linear (formatter : Str) (args : List Str) (hf : Shapes formatter) (ha : ∀ a ∈ args, Shapes a) :
    (formatC formatter args).steps ≤ 26 * (formatter.length + total args + (formatC formatter args).written + 1) := by
  obtain ⟨h1, h2⟩ := loop_le args ha (formatter.length + 1) formatter 0 hf
  unfold formatC
  simp only [before_eq]
  cases hr : (loopC args (formatter.length + 1) formatter 0).result with
  | error e => simp only; omega
  | ok out =>
    have := (h2 out hr).2
    simp only
    omega

/-- C176. What is written is the text of the result, if there is one. -/
theorem C176_written (formatter : Str) (args : List Str) (hf : Shapes formatter) (ha : ∀ a ∈ args, Shapes a) (s : Str)
    (h : format formatter args = .ok s) : (formatC formatter args).written = (Str.str s).length := by
  rw [← C176_same] at h
  obtain ⟨h1, h2⟩ := loop_le args ha (formatter.length + 1) formatter 0 hf
  unfold formatC at h ⊢
  simp only at h ⊢
  cases hr : (loopC args (formatter.length + 1) formatter 0).result with
  | error e => rw [hr] at h; cases h
  | ok out =>
    rw [hr] at h
    simp only at h ⊢
    obtain ⟨⟨t, ht, rfl⟩, hl⟩ := h2 out hr
    rw [Str.ofStdString_str t ht] at h
    cases h
    exact hl.symm

/-- C176. The bound is the best but for the factor: with a result at least one step is made for each character of the template and of the arguments
and each byte of the result. -/
theorem C176_least (formatter : Str) (args : List Str) (s : Str) (h : format formatter args = .ok s) :
    formatter.length + total args + (formatC formatter args).written ≤ (formatC formatter args).steps := by
  rw [← C176_same] at h
  unfold formatC at h ⊢
  simp only [before_eq] at h ⊢
  cases hr : (loopC args (formatter.length + 1) formatter 0).result with
  | error e => rw [hr] at h; cases h
  | ok out =>
    have := loop_ge args _ _ _ out hr
    simp only
    omega

/-- C176. Text without braces, exactly: four comparisons for each character, and each byte is written, copied and decoded twice. -/
theorem C176_plain (s : Str) (args : List Str) (hs : ∀ c ∈ s, c ≠ ⟨b!"{"⟩ ∧ c ≠ ⟨b!"}"⟩) :
    (formatC s args).steps = 2 * total args + 4 * s.length + 4 * (Str.str s).length + 1 := by
  obtain ⟨h1, h2⟩ := loop_plain args (s.length + 1) s 0 (Nat.lt_succ_self _) hs
  unfold formatC
  simp only [h1, h2, before_eq]
  omega

/-- C176. A padded argument, exactly. -/
theorem C176_padded (a : Str) (h : a.length < 12) :
    (formatC c!"{:*>12}" [a]).steps = 3 * a.length + 4 * ((Str.str a).length + (12 - a.length)) + 73 := by
  have hm : makeSpecifierC c!":*>12" = (23, .ok { align := .right, width := 12, fill := ⟨b!"*"⟩ }) := by rfl
  have hs : startsWithDigit c!":*>12" = .ok false := by rfl
  have ha : processAlignmentC a { align := .right, width := 12, fill := ⟨b!"*"⟩ } =
      (13, .ok (List.replicate (12 - a.length) ⟨b!"*"⟩ ++ a)) := by
    have e : 1 + (12 - a.length) + a.length = 13 := by omega
    unfold processAlignmentC
    rw [if_neg (by simp only; omega)]
    simp only [Str.insertCount, e]
    simp
  have hf : formattedC [a] 0 c!":*>12" = (49 + a.length, .ok (Str.str (List.replicate (12 - a.length) ⟨b!"*"⟩ ++ a))) := by
    have e : 23 + (1 + (a.length + 13 + (List.replicate (12 - a.length) (⟨b!"*"⟩ : Chr) ++ a).length)) = 49 + a.length := by
      simp only [List.length_append, List.length_replicate]; omega
    unfold formattedC processC
    rw [hm]
    simp only [next, vecGet, List.getElem?_cons_zero, ha, e]
  have hp : placeholderC [a] 0 c!":*>12" =
      (51 + a.length, .ok (Str.str (List.replicate (12 - a.length) ⟨b!"*"⟩ ++ a), 0)) := by
    have e : 1 + (49 + a.length + 1) = 51 + a.length := by omega
    unfold placeholderC
    rw [hs]
    simp only [next]
    rw [if_neg (by decide), if_pos (by decide), hf]
    simp only [e]
  have ht : (Str.str (List.replicate (12 - a.length) (⟨b!"*"⟩ : Chr) ++ a)).length = (Str.str a).length + (12 - a.length) := by
    have : ∀ n, (Str.str (List.replicate n (⟨b!"*"⟩ : Chr) ++ a)).length = (Str.str a).length + n := by
      intro n
      induction n with
      | zero => rfl
      | succ n ih =>
        have e : Str.str (List.replicate (n + 1) (⟨b!"*"⟩ : Chr) ++ a) = b!"*" ++ Str.str (List.replicate n (⟨b!"*"⟩ : Chr) ++ a) := by
          simp only [List.replicate_succ, List.cons_append, Str.str, List.flatMap_cons]
          rfl
        rw [e, List.length_append, ih, List.length_cons, List.length_nil]
        omega
    exact this _
  have hl : loopC [a] 8 c!"{:*>12}" 0 = Loop.after (72 + a.length) (Str.str (List.replicate (12 - a.length) ⟨b!"*"⟩ ++ a)) ⟨1, 0, .ok []⟩ := by
    have hk : FindCost.searchC c!"{:*>12}" c!"}" = (7, 6) := by rfl
    have hb : Str.substring c!"{:*>12}" 1 (6 - 1) = .ok c!":*>12" := by rfl
    have e : 4 + 7 + cutting 5 + (51 + a.length) = 72 + a.length := by unfold cutting; omega
    rw [loopC, if_pos rfl, if_neg (by decide)]
    simp only [hk]
    rw [if_neg (by decide), hb]
    simp only [hp]
    exact congrArg (fun k => Loop.after k _ _) e
  unfold formatC
  simp only [List.length_cons, List.length_nil]
  rw [hl]
  simp only [Loop.after, Except.map, List.append_nil, ht, List.map_cons, List.map_nil, List.sum_cons, List.sum_nil]
  omega

/-- C176. An argument without a point and a precision, exactly. -/
theorem C176_precision (a : Str) (hs : Shapes a) (hd : ⟨b!"."⟩ ∉ a) :
    (formatC c!"{:.2f}" [a]).steps = 5 * a.length + 8 * (Str.str a).length + 73 := by
  have hm : makeSpecifierC c!":.2f" = (23, .ok { precision := 2, type := .floating }) := by rfl
  have hb : startsWithDigit c!":.2f" = .ok false := by rfl
  have hscan : ∀ t : Str, ⟨b!"."⟩ ∉ t → FindCost.scan ⟨b!"."⟩ [] t = (t.length, t.length) := by
    intro t
    induction t with
    | nil => exact fun _ => rfl
    | cons c t ih =>
      intro h
      rw [FindCost.scan, if_neg fun e => h (by simp [e]), ih fun e => h (List.mem_cons_of_mem _ e)]
      rfl
  have hfind : findC a c!"." 0 = (a.length, .ok npos) := by
    unfold findC FindCost.findC
    rw [if_neg (Nat.not_lt_zero _), List.drop_zero]
    simp only [FindCost.searchC, hscan a hd]
    simp
  have hx : floatingTextC a { precision := 2, type := .floating } =
      (2 * a.length + (Str.str a).length + 3, .ok (Str.str (a ++ c!".00"))) := by
    have e : Str.str a ++ b!"." ++ List.replicate (Int.toNat 2) 0x30 = Str.str (a ++ c!".00") := by
      simp only [Str.str, List.flatMap_append, List.append_assoc]
      rfl
    have e2 : (Str.str (a ++ c!".00")).length = (Str.str a).length + 3 := by
      rw [← e, List.length_append, List.length_append]; rfl
    unfold floatingTextC
    rw [hfind]
    simp only [next]
    rw [if_neg (by simp), if_pos (by decide)]
    simp only [e, e2]
    congr 1
    omega
  have hw : (Str.str (a ++ c!".00")).length = (Str.str a).length + 3 := by
    simp only [Str.str, List.flatMap_append, List.length_append]
    rfl
  have hr : Shapes (a ++ c!".00") := by
    intro c h
    rcases List.mem_append.1 h with h | h
    · exact hs c h
    · simp only [List.mem_cons, List.not_mem_nil, or_false] at h
      rcases h with rfl | rfl | rfl <;> exact .one _ (by decide) (by decide)
  have hg : processFloatingC a { precision := 2, type := .floating } = (2 * a.length + 4 * (Str.str a).length + 13, .ok (a ++ c!".00")) := by
    have e : 2 * a.length + (Str.str a).length + 3 + (3 * ((Str.str a).length + 3) + 1) = 2 * a.length + 4 * (Str.str a).length + 13 := by
      omega
    unfold processFloatingC processAlignmentC
    rw [hx]
    simp only [next, Str.ofStdString_str _ hr, hw, ge_iff_le, Nat.zero_le, if_true, e]
  have hf : formattedC [a] 0 c!":.2f" = (40 + 3 * a.length + 4 * (Str.str a).length, .ok (Str.str (a ++ c!".00"))) := by
    have e : 23 + (1 + (2 * a.length + 4 * (Str.str a).length + 13 + (a ++ c!".00").length)) = 40 + 3 * a.length + 4 * (Str.str a).length := by
      simp only [List.length_append, List.length_cons, List.length_nil]; omega
    unfold formattedC processC
    rw [hm]
    simp only [next, vecGet, List.getElem?_cons_zero, hg, e]
  have hp : placeholderC [a] 0 c!":.2f" = (42 + 3 * a.length + 4 * (Str.str a).length, .ok (Str.str (a ++ c!".00"), 0)) := by
    have e : 1 + (40 + 3 * a.length + 4 * (Str.str a).length + 1) = 42 + 3 * a.length + 4 * (Str.str a).length := by omega
    unfold placeholderC
    rw [hb]
    simp only [next]
    rw [if_neg (by decide), if_pos (by decide), hf]
    simp only [e]
  have hl : loopC [a] 7 c!"{:.2f}" 0 =
      Loop.after (60 + 3 * a.length + 4 * (Str.str a).length) (Str.str (a ++ c!".00")) ⟨1, 0, .ok []⟩ := by
    have hk : FindCost.searchC c!"{:.2f}" c!"}" = (6, 5) := by rfl
    have hc : Str.substring c!"{:.2f}" 1 (5 - 1) = .ok c!":.2f" := by rfl
    have e : 4 + 6 + cutting 4 + (42 + 3 * a.length + 4 * (Str.str a).length) = 60 + 3 * a.length + 4 * (Str.str a).length := by
      unfold cutting; omega
    rw [loopC, if_pos rfl, if_neg (by decide)]
    simp only [hk]
    rw [if_neg (by decide), hc]
    simp only [hp]
    exact congrArg (fun k => Loop.after k _ _) e
  unfold formatC
  simp only [List.length_cons, List.length_nil]
  rw [hl]
  simp only [Loop.after, Except.map, List.append_nil, hw, List.map_cons, List.map_nil, List.sum_cons, List.sum_nil]
  omega

example : (formatC c!"a{}b{{{1}}}{}" [c!"x", c!"yé"]).written = 11 := by decide +kernel
example : (formatC c!"[{:*^9}] {:.2f}" [c!"3.14159"]).written = 16 := by decide +kernel
example : (formatC c!"[{:*^9}] {:.2f}" [c!"3.14159"]).steps = 232 := by decide +kernel
example : Shapes c!"[{:*^9}] {:.2f}" := by
  intro c h
  simp only [List.mem_cons, List.not_mem_nil, or_false] at h
  rcases h with rfl | rfl | rfl | rfl | rfl | rfl | rfl | rfl | rfl | rfl | rfl | rfl | rfl | rfl | rfl <;> exact .one _ (by decide) (by decide)
/-- A short template can have a long text written. -/
example : (formatC c!"{:99}" [c!"x"]).written = 99 := by decide +kernel

end Caitlyn
