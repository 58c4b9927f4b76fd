import Verif.Model.CharUtil
import Verif.Proofs.Str

/-!
# Lemmas about the code point tables
-/

namespace Caitlyn
namespace CharUtil

theorem ite_eq_of {α : Type} {p : Prop} [Decidable p] {a b c : α} (h1 : p → a = c)
    (h2 : ¬ p → b = c) : (if p then a else b) = c := by
  by_cases h : p
  · rw [if_pos h]; exact h1 h
  · rw [if_neg h]; exact h2 h

theorem ite_eq_imp {α : Type} {p : Prop} [Decidable p] {a b c : α} {Q : Prop}
    (h1 : p → a = c → Q) (h2 : ¬ p → b = c → Q) : (if p then a else b) = c → Q := by
  by_cases h : p
  · rw [if_pos h]; exact h1 h
  · rw [if_neg h]; exact h2 h

/-- Membership in the ranges of `IsUppercase`. -/
def UpP (cp : Nat) : Prop :=
  cp = 0x1E9E ∨ cp = 0x0130 ∨ cp = 0x212A ∨ cp = 0x212B ∨ 0x41 ≤ cp ∧ cp ≤ 0x5A ∨
  0x410 ≤ cp ∧ cp ≤ 0x42F ∨ 0x391 ≤ cp ∧ cp ≤ 0x3A1 ∨ 0x3A3 ≤ cp ∧ cp ≤ 0x3A9 ∨
  0x1F08 ≤ cp ∧ cp ≤ 0x1F0F ∨ 0x1F18 ≤ cp ∧ cp ≤ 0x1F1D ∨ 0x1F28 ≤ cp ∧ cp ≤ 0x1F2F ∨
  0x1F38 ≤ cp ∧ cp ≤ 0x1F3F ∨ 0x1F48 ≤ cp ∧ cp ≤ 0x1F4D ∨ 0x1F68 ≤ cp ∧ cp ≤ 0x1F6F ∨
  0x1FB8 ≤ cp ∧ cp ≤ 0x1FBB ∨ 0x1FC8 ≤ cp ∧ cp ≤ 0x1FCB ∨ 0x1FD8 ≤ cp ∧ cp ≤ 0x1FDB ∨
  0x1FE8 ≤ cp ∧ cp ≤ 0x1FEC

/-- Membership in the ranges of `IsLowercase`. -/
def LowP (cp : Nat) : Prop :=
  cp = 0x00DF ∨ cp = 0x0131 ∨ cp = 0x0149 ∨ 0x61 ≤ cp ∧ cp ≤ 0x7A ∨ 0x430 ≤ cp ∧ cp ≤ 0x44F ∨
  0x3B1 ≤ cp ∧ cp ≤ 0x3C1 ∨ 0x3C3 ≤ cp ∧ cp ≤ 0x3C9 ∨ 0x1F00 ≤ cp ∧ cp ≤ 0x1F07 ∨
  0x1F10 ≤ cp ∧ cp ≤ 0x1F15 ∨ 0x1F20 ≤ cp ∧ cp ≤ 0x1F27 ∨ 0x1F30 ≤ cp ∧ cp ≤ 0x1F37 ∨
  0x1F40 ≤ cp ∧ cp ≤ 0x1F45 ∨ 0x1F60 ≤ cp ∧ cp ≤ 0x1F67 ∨ 0x1F70 ≤ cp ∧ cp ≤ 0x1F7D

/-- Latin Extended-A up to U+0177: handled by parity in the mappings. -/
def ExtP (cp : Nat) : Prop :=
  0x0100 ≤ cp ∧ cp ≤ 0x012F ∨ 0x0132 ≤ cp ∧ cp ≤ 0x0137 ∨ 0x0139 ≤ cp ∧ cp ≤ 0x0148 ∨
  0x014A ≤ cp ∧ cp ≤ 0x0177

theorem upP_iff (n : Nat) : isUppercase n = true ↔ UpP n := by
  unfold UpP
  constructor
  · unfold isUppercase
    repeat' (refine ite_eq_imp (fun _ => ?_) (fun _ => ?_))
    all_goals intro h
    any_goals (cases h; done)
    all_goals omega
  · intro h
    unfold isUppercase
    repeat' (refine ite_eq_of (fun _ => ?_) (fun _ => ?_))
    any_goals rfl
    all_goals omega

theorem lowP_iff (n : Nat) : isLowercase n = true ↔ LowP n := by
  unfold LowP
  constructor
  · unfold isLowercase
    repeat' (refine ite_eq_imp (fun _ => ?_) (fun _ => ?_))
    all_goals intro h
    any_goals (cases h; done)
    all_goals omega
  · intro h
    unfold isLowercase
    repeat' (refine ite_eq_of (fun _ => ?_) (fun _ => ?_))
    any_goals rfl
    all_goals omega

theorem letter_false (n : Nat) : isLetter n = false ↔ ¬ UpP n ∧ ¬ LowP n := by
  rw [← upP_iff, ← lowP_iff]; simp [isLetter]

theorem toUppercase_fix (n : Nat) (h : ¬ LowP n) (h2 : ¬ ExtP n ∨ n % 2 = 0) :
    toUppercase n = n := by
  unfold LowP at h
  unfold ExtP at h2
  unfold toUppercase
  repeat' (refine ite_eq_of (fun _ => ?_) (fun _ => ?_))
  all_goals omega

theorem toUppercase_img (n : Nat) :
    ¬ LowP (toUppercase n) ∧ (¬ ExtP (toUppercase n) ∨ toUppercase n % 2 = 0) := by
  generalize hm : toUppercase n = m
  revert hm
  unfold LowP ExtP toUppercase
  repeat' (refine ite_eq_imp (fun _ => ?_) (fun _ => ?_))
  all_goals intro hm
  all_goals omega

theorem toLowercase_fix (n : Nat) (h : ¬ UpP n ∨ n = 0x1FDA ∨ n = 0x1FDB) (h1 : n < 0x1FEC) (h2 : ¬ ExtP n ∨ n % 2 = 1) :
    toLowercase n = n := by
  unfold UpP at h
  unfold ExtP at h2
  unfold toLowercase
  repeat' (refine ite_eq_of (fun _ => ?_) (fun _ => ?_))
  all_goals omega

theorem toLowercase_high (n : Nat) (h1 : 0x1FEC ≤ n) (h2 : n ≠ 0x212A ∧ n ≠ 0x212B) :
    toLowercase n = n - 8 := by
  unfold toLowercase
  repeat' (refine ite_eq_of (fun _ => ?_) (fun _ => ?_))
  all_goals omega

theorem toLowercase_img (n : Nat) (h : n < 0x1FF0 ∨ n = 0x212A ∨ n = 0x212B) :
    (¬ UpP (toLowercase n) ∨ toLowercase n = 0x1FDA ∨ toLowercase n = 0x1FDB) ∧
      toLowercase n < 0x1FEC ∧
      (¬ ExtP (toLowercase n) ∨ toLowercase n % 2 = 1) := by
  generalize hm : toLowercase n = m
  revert hm
  unfold UpP ExtP toLowercase
  repeat' (refine ite_eq_imp (fun _ => ?_) (fun _ => ?_))
  all_goals intro hm
  all_goals omega

theorem toUppercase_lt (n : Nat) (h : n < 0x110000) : toUppercase n < 0x110000 := by
  generalize hm : toUppercase n = m
  revert hm
  unfold toUppercase
  repeat' (refine ite_eq_imp (fun _ => ?_) (fun _ => ?_))
  all_goals intro hm
  all_goals omega

theorem toLowercase_lt (n : Nat) (h : n < 0x110000) : toLowercase n < 0x110000 := by
  generalize hm : toLowercase n = m
  revert hm
  unfold toLowercase
  repeat' (refine ite_eq_imp (fun _ => ?_) (fun _ => ?_))
  all_goals intro hm
  all_goals omega

end CharUtil
end Caitlyn
