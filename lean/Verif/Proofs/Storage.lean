import Verif.Spec.OneLine
import Verif.Props.JsonPrint
import Verif.Props.File

/-! # Lemmas for C125: one line per value, and the file a writer leaves behind -/

namespace Caitlyn
open Caitlyn.Spec JsonParser Json

variable {F : Type}

theorem numChar_lf : ¬ NumChar (chr 0x0A) := by
  rintro (⟨b, h1, h2, h⟩ | h)
  · injection h with h
    injection h with h
    subst h
    exact absurd h1 (by decide)
  · revert h; decide

/-- The compact form of a value without line feeds has none. -/
theorem output_oneLine {ops : FloatOps F} {lits : Bool} {j : Json F} (h : Printable ops lits j) (h1 : OneLine j) :
    ∀ base indent, chr 0x0A ∉ output ops false base indent j := by
  have happ : ∀ {a b : Str}, chr 0x0A ∉ a → chr 0x0A ∉ b → chr 0x0A ∉ a ++ b := by
    intro a b h1 h2 hc
    rcases List.mem_append.mp hc with h | h
    · exact h1 h
    · exact h2 h
  have hsp : ∀ {a : Str}, chr 0x0A ∉ whenPretty false a := by
    intro a hc; cases hc
  have hone : ∀ b : UInt8, b ≠ 0x0A → chr 0x0A ∉ [Chr.mk [b]] := by
    intro b hb hc
    have := List.mem_singleton.mp hc
    injection this with this
    injection this with this
    exact hb this.symm
  have hnum : ∀ {t : Str}, (∀ d ∈ t, NumChar d) → chr 0x0A ∉ t := fun ht hc => numChar_lf (ht _ hc)
  induction h with
  | null _ => intro base indent hc; revert hc; rw [output]; decide
  | bool b _ => intro base indent hc; revert hc; rw [output]; cases b <;> decide
  | int i _ _ =>
    intro base indent
    obtain ⟨c, t, he, hc, ht, hc'⟩ := intLit_numChars (intChars_lit i)
    rw [output, he]
    apply hnum
    intro d hd
    rcases List.mem_cons.mp hd with rfl | hd
    · exact numStart_numChar hc
    · exact .inl (ht d hd)
  | float f h =>
    intro base indent
    obtain ⟨c, t, he, hc, ht, hf, hs⟩ := h
    rw [output, show (ops.print f).map Chr.ofByte = c :: t from he]
    apply hnum
    intro d hd
    rcases List.mem_cons.mp hd with rfl | hd
    · exact numStart_numChar hc
    · exact ht d hd
  | str s h _ =>
    intro base indent
    cases h1 with
    | str _ h1 =>
      rw [output]
      exact happ (happ (hone _ (by decide)) h1) (hone _ (by decide))
  | arr js hj ih =>
    intro base indent
    cases h1 with
    | arr _ h1 =>
      have hitems : ∀ js' : List (Json F), (∀ j ∈ js', j ∈ js) → chr 0x0A ∉ outputItems ops false base indent js' := by
        intro js'
        induction js' with
        | nil => intro _ hc; rw [outputItems] at hc; cases hc
        | cons j js' ih' =>
          intro hsub
          rw [outputItems]
          exact happ (happ (happ (happ (hone _ (by decide)) hsp) hsp)
            (ih j (hsub j (.head _)) (h1 j (hsub j (.head _))) base _)) (ih' fun x hx => hsub x (.tail _ hx))
      cases js with
      | nil =>
        rw [output]
        exact happ (happ (happ (hone _ (by decide)) (by simp)) hsp) (hone _ (by decide))
      | cons j js =>
        rw [output]
        refine happ (happ (happ (hone _ (by decide)) ?_) hsp) (hone _ (by decide))
        exact happ (happ hsp (happ (happ hsp (ih j (.head _) (h1 j (.head _)) base _))
          (hitems js fun x hx => .tail _ hx))) hsp
  | obj ms hn hk hm ih =>
    intro base indent
    cases h1 with
    | obj _ hk1 h1 =>
      have hmem : ∀ m ∈ ms, chr 0x0A ∉ outputMember ops false base indent m := by
        intro m hm
        have hk := hk1 m hm
        have hv := ih m hm (h1 m hm) base
        obtain ⟨k, v⟩ := m
        rw [outputMember]
        exact happ (happ (happ (happ (happ (happ hsp (hone _ (by decide)))
          hk) (hone _ (by decide))) (hone _ (by decide))) hsp)
          (hv _)
      have hmems : ∀ ms' : List (Str × Json F), (∀ m ∈ ms', m ∈ ms) →
          chr 0x0A ∉ outputMembers ops false base indent ms' := by
        intro ms'
        induction ms' with
        | nil => intro _ hc; rw [outputMembers] at hc; cases hc
        | cons m ms' ih' =>
          intro hsub
          rw [outputMembers]
          exact happ (happ (happ (hone _ (by decide)) hsp) (hmem m (hsub m (.head _))))
            (ih' fun x hx => hsub x (.tail _ hx))
      cases ms with
      | nil =>
        rw [output]
        exact happ (happ (happ (hone _ (by decide)) (by simp)) hsp) (hone _ (by decide))
      | cons m ms =>
        rw [output]
        refine happ (happ (happ (hone _ (by decide)) ?_) hsp) (hone _ (by decide))
        exact happ (happ hsp (happ (hmem m (.head _)) (hmems ms fun x hx => .tail _ hx))) hsp

/-- The file behind a writer: the old content and then the lines. -/
theorem written_disk (texts : List Str) : ∀ (q : Nat) (p : Int) (c : List UInt8),
    (File.run (File.ready q p c) (texts.map .writeLine ++ [.close])).1 = List.replicate (texts.length + 1) (.ok .unit) ∧
    (File.run (File.ready q p c) (texts.map .writeLine ++ [.close])).2.disk = some (c ++ texts.flatMap File.line) := by
  induction texts with
  | nil => intro q p c; exact ⟨rfl, by simp [File.run, File.step, File.close, File.ready]; rfl⟩
  | cons t ts ih =>
    intro q p c
    have e := ih (c.length + (File.line t).length) p (c ++ File.line t)
    refine ⟨?_, ?_⟩
    · show _ :: _ = _
      rw [show (t :: ts).length + 1 = (ts.length + 1) + 1 from rfl, List.replicate_succ, ← e.1]
      rfl
    · rw [List.flatMap_cons, ← List.append_assoc, ← e.2]
      rfl

end Caitlyn
