import Verif.Spec.JsonPrint
import Verif.Proofs.JsonComplete
import Verif.Proofs.StdNum

/-! # Helper lemmas: what `MakeOutput` writes is a text of the dialect -/

namespace Caitlyn
open Caitlyn.Spec Json

variable {F : Type}

theorem natValue_digits : ∀ (cs : List Char) (_ : ∀ c ∈ cs, BigInt.DigitChar c) (n : Nat),
    (cs.map BigInt.asc).foldl (fun n c => 10 * n + ((c.data.headD 0).toNat - 0x30)) n = Nat.ofDigitChars 10 cs n
  | [], _, n => rfl
  | c :: cs, h, n => by
    have hc := h c (by simp)
    have hd := hc
    unfold BigInt.DigitChar at hd
    rw [List.map_cons, List.foldl_cons, natValue_digits cs (fun c hc => h c (by simp [hc]))]
    unfold Nat.ofDigitChars
    rw [List.foldl_cons]
    congr 1
    simp only [BigInt.asc, Chr.ofByte, List.headD_cons]
    rw [UInt8.toNat_ofNat', Nat.mod_eq_of_lt (by omega)]
    rfl

theorem asc_digit {c : Char} (h : BigInt.DigitChar c) : Digit (BigInt.asc c) := by
  unfold BigInt.DigitChar at h
  refine ⟨UInt8.ofNat c.toNat, ?_, ?_, rfl⟩
  · rw [UInt8.le_iff_toNat_le, UInt8.toNat_ofNat', Nat.mod_eq_of_lt (by omega)]; exact h.1
  · rw [UInt8.le_iff_toNat_le, UInt8.toNat_ofNat', Nat.mod_eq_of_lt (by omega)]; exact h.2

/-- Printed integers are integer literals. -/
theorem intChars_lit (i : Int) : IntLit (intChars i) i := by
  have hd := BigInt.toDigits_digitChar i.natAbs
  have hv : natValue ((Nat.toDigits 10 i.natAbs).map BigInt.asc) = i.natAbs := by
    unfold natValue
    rw [natValue_digits _ hd, Nat.ofDigitChars_ten_toDigits]
  have hne : (Nat.toDigits 10 i.natAbs).map BigInt.asc ≠ [] := by simp [Nat.toDigits_ne_nil]
  have hdig : ∀ c ∈ (Nat.toDigits 10 i.natAbs).map BigInt.asc, Digit c := by
    intro c hc
    obtain ⟨x, hx, rfl⟩ := List.mem_map.mp hc
    exact asc_digit (hd x hx)
  unfold intChars
  rw [BigInt.toString_chars]
  show IntLit (List.map BigInt.asc _) _
  split
  · rename_i h
    rw [List.map_cons]
    have := IntLit.neg _ hne hdig
    rw [hv] at this
    rw [show -(i.natAbs : Int) = i by omega] at this
    exact this
  · rename_i h
    have := IntLit.nonneg _ hne hdig
    rw [hv] at this
    rw [show (i.natAbs : Int) = i by omega] at this
    exact this

theorem spaces_whenPretty (pretty : Bool) {s : Str} (h : Spaces s) : Spaces (whenPretty pretty s) := by
  unfold whenPretty
  split
  · exact h
  · simp [Spaces]

theorem spaces_lf : Spaces c!"\n" := by simp [Spaces, Space, chr]
theorem spaces_sp : Spaces c!" " := by simp [Spaces, Space, chr]
theorem spaces_spaces (n : Nat) : Spaces (spaces n) := by
  intro c hc
  rw [List.eq_of_mem_replicate hc]
  simp [Space, chr]

theorem spaces_app {w w' : Str} (h : Spaces w) (h' : Spaces w') : Spaces (w ++ w') := by
  intro c hc
  rcases List.mem_append.mp hc with hc | hc
  · exact h c hc
  · exact h' c hc

/-- What may follow a value: white space, a comma or a closing bracket. -/
def Follow (b : UInt8) : Prop := b = 0x7D ∨ b = 0x5D ∨ b = 0x2C

theorem headIs_follow {b : UInt8} (hb : Follow b) {w : Str} (hw : Spaces w) (rest : Str) :
    HeadIs (fun d => ¬ NumChar d) (w ++ chr b :: rest) := by
  intro c hc
  cases w with
  | nil =>
    rw [List.nil_append, List.head?_cons] at hc
    injection hc with hc
    subst hc
    rcases hb with rfl | rfl | rfl
    all_goals
      refine ⟨⟨_, by decide, rfl⟩, ?_⟩
      rintro (h | h)
      · exact absurd ((digit_chr _).mp h) (by decide)
      · revert h; decide
  | cons x w =>
    rw [List.cons_append, List.head?_cons] at hc
    injection hc with hc
    subst hc
    have hx := hw x (by simp)
    simp only [Space, List.mem_cons, List.not_mem_nil, or_false] at hx
    rcases hx with rfl | rfl | rfl | rfl | rfl | rfl
    all_goals
      refine ⟨⟨_, by decide, rfl⟩, ?_⟩
      rintro (h | h)
      · exact absurd ((digit_chr _).mp h) (by decide)
      · revert h; decide

/-- The printed value is a text of the value. -/
def Prints (ops : FloatOps F) (lits : Bool) (j : Json F) : Prop :=
  ∀ pretty base indent rest, HeadIs (fun d => ¬ NumChar d) rest →
    Val ops lits (output ops pretty base indent j ++ rest) j rest

theorem members_print {ops : FloatOps F} {lits : Bool} (pretty : Bool) (base indent : Nat) (ws rest : Str)
    (hw : Spaces ws) : ∀ (ms : List (Str × Json F)) (k : Str) (v : Json F), chr 0x22 ∉ k → Prints ops lits v →
      (∀ m ∈ ms, chr 0x22 ∉ m.1 ∧ Prints ops lits m.2) →
      Members ops lits (chr 0x22 :: k ++ chr 0x22 :: ([] : Str) ++ chr 0x3A :: whenPretty pretty c!" " ++
        (output ops pretty base (indent + base) v ++
          (outputMembers ops pretty base indent ms ++ (ws ++ chr 0x7D :: rest)))) ((k, v) :: ms) rest
  | [], k, v, hk, hv, _ =>
    .last k [] _ ws _ v rest hk (by simp [Spaces]) (spaces_whenPretty _ spaces_sp) hw (by
      rw [outputMembers, List.nil_append]
      exact hv pretty base _ _ (headIs_follow (.inl rfl) hw rest))
  | (k', v') :: ms, k, v, hk, hv, h => by
    have ih := members_print pretty base indent ws rest hw ms k' v' (h _ (.head _)).1 (h _ (.head _)).2
      (fun m hm => h m (.tail _ hm))
    refine .more k [] _ [] (whenPretty pretty c!"\n" ++ whenPretty pretty (spaces indent)) _ v _ _ rest hk
      (by simp [Spaces]) (spaces_whenPretty _ spaces_sp) (by simp [Spaces])
      (spaces_app (spaces_whenPretty _ spaces_lf) (spaces_whenPretty _ (spaces_spaces _))) ?_ ih
    rw [outputMembers, outputMember]
    have := hv pretty base (indent + base) (([] : Str) ++ chr 0x2C :: (whenPretty pretty c!"\n" ++
      (whenPretty pretty (spaces indent) ++ (chr 0x22 :: k' ++ chr 0x22 :: ([] : Str) ++ chr 0x3A :: whenPretty pretty c!" " ++
        (output ops pretty base (indent + base) v' ++
          (outputMembers ops pretty base indent ms ++ (ws ++ chr 0x7D :: rest)))))))
      (headIs_follow (.inr (.inr rfl)) (by simp [Spaces]) _)
    simpa [chr] using this

theorem items_print {ops : FloatOps F} {lits : Bool} (pretty : Bool) (base indent : Nat) (ws rest : Str)
    (hw : Spaces ws) : ∀ (js : List (Json F)) (v : Json F), Prints ops lits v → (∀ j ∈ js, Prints ops lits j) →
      Elements ops lits (output ops pretty base (indent + base) v ++
        (outputItems ops pretty base indent js ++ (ws ++ chr 0x5D :: rest))) (v :: js) rest
  | [], v, hv, _ =>
    .last ws _ v rest hw (by
      rw [outputItems, List.nil_append]
      exact hv pretty base _ _ (headIs_follow (.inr (.inl rfl)) hw rest))
  | v' :: js, v, hv, h => by
    have ih := items_print pretty base indent ws rest hw js v' (h _ (.head _)) (fun j hj => h j (.tail _ hj))
    refine .more [] (whenPretty pretty c!"\n" ++ whenPretty pretty (spaces indent)) _ v _ _ rest
      (by simp [Spaces])
      (spaces_app (spaces_whenPretty _ spaces_lf) (spaces_whenPretty _ (spaces_spaces _))) ?_ ih
    rw [outputItems]
    have := hv pretty base (indent + base) (([] : Str) ++ chr 0x2C :: (whenPretty pretty c!"\n" ++
      (whenPretty pretty (spaces indent) ++ (output ops pretty base (indent + base) v' ++
          (outputItems ops pretty base indent js ++ (ws ++ chr 0x5D :: rest))))))
      (headIs_follow (.inr (.inr rfl)) (by simp [Spaces]) _)
    simpa [chr] using this

theorem collapse_nodup : ∀ (ms : List (Str × Json F)), (ms.map Prod.fst).Nodup → collapse ms = ms
  | [], _ => rfl
  | (k, v) :: ms, h => by
    rw [List.map_cons, List.nodup_cons] at h
    have hl : ∀ (ms : List (Str × Json F)) (v : Json F), k ∉ ms.map Prod.fst → lastValue k v ms = v := by
      intro ms
      induction ms with
      | nil => intro v _; rfl
      | cons m ms ih =>
        obtain ⟨k', v'⟩ := m
        intro v hk
        rw [List.map_cons, List.mem_cons, not_or] at hk
        rw [lastValue, if_neg (fun e => hk.1 e.symm), ih v hk.2]
    rw [collapse, hl ms v h.1, collapse_nodup ms h.2, List.filter_eq_self.mpr]
    intro m hm
    have : m.1 ≠ k := fun e => h.1 (List.mem_map.mpr ⟨m, hm, e⟩)
    simpa using this

theorem intLit_numChars {lit : Str} {i : Int} (h : IntLit lit i) :
    ∃ c t, lit = c :: t ∧ NumStart c ∧ (∀ d ∈ t, Digit d) ∧ (c = chr 0x2D ∨ Digit c) := by
  cases h with
  | nonneg ds hne hd =>
    cases lit with
    | nil => exact absurd rfl hne
    | cons c t => exact ⟨c, t, rfl, .inl (hd c (by simp)), fun d h => hd d (by simp [h]), .inr (hd c (by simp))⟩
  | neg ds hne hd => exact ⟨_, _, rfl, .inr (.inl rfl), hd, .inl rfl⟩

theorem prints {ops : FloatOps F} {lits : Bool} {j : Json F} (h : Printable ops lits j) : Prints ops lits j := by
  induction h with
  | null h => intro pretty base indent rest _; exact .null rest h
  | bool b h =>
    intro pretty base indent rest _
    cases b
    · exact .false rest h
    · exact .true rest h
  | int i h1 h2 =>
    intro pretty base indent rest hr
    rw [output]
    have hl := intChars_lit i
    obtain ⟨c, t, he, hc, ht, hc'⟩ := intLit_numChars hl
    have hf : ¬ Floating (c :: t) := by
      rintro ⟨d, hd, hm⟩
      have key : ∀ d : Chr, (d = chr 0x2D ∨ Digit d) → d ∉ c!"+eE" := by
        rintro d (rfl | ⟨b, h1, h2, rfl⟩) hm
        · revert hm; decide
        · simp only [List.mem_cons, List.not_mem_nil, or_false] at hm
          rcases hm with h | h | h <;> (have := congrArg Chr.data h; injection this with this; subst this; revert h1 h2; decide)
      rcases List.mem_cons.mp hd with e | hd
      · exact key d (e ▸ hc') hm
      · exact key d (.inr (ht d hd)) hm
    rw [he] at hl ⊢
    have := Number.int (ops := ops) (c :: t) [] i hl h1 h2 (by simp) (by rwa [List.append_nil])
    rw [List.append_nil] at this
    exact .number c t _ rest hc (fun d hd => .inl (ht d hd)) hr this
  | float f h =>
    intro pretty base indent rest hr
    obtain ⟨c, t, he, hc, ht, hf, hs⟩ := h
    rw [output, show (ops.print f).map Chr.ofByte = c :: t from he]
    refine .number c t _ rest hc ht hr (.float _ f hf ?_)
    rw [ascii_str (by
      intro d hd
      rcases List.mem_cons.mp hd with rfl | hd
      · exact numChar_ascii (numStart_numChar hc)
      · exact numChar_ascii (ht d hd)), ← he, List.map_map]
    rw [show ((fun c : Chr => c.data.headD 0) ∘ chr) = id from rfl, List.map_id]
    exact hs
  | str s h hb =>
    intro pretty base indent rest hr
    rw [output]
    have hbody : StrBody s (Str.str s) := by
      have hq := h.2.1
      clear hr h
      induction s with
      | nil => exact .nil
      | cons c s ih =>
        exact .plain c s _ (fun h => hq (by simp [h])) (fun h => hb (by simp [h]))
          (ih (fun h => hb (by simp [h])) (fun h => hq (by simp [h])))
    have := Val.string (ops := ops) (lits := lits) s _ s rest hbody (Str.ofStdString_str s h.1)
    simpa [chr] using this
  | arr js hj ih =>
    intro pretty base indent rest hr
    have hsp := spaces_whenPretty pretty (spaces_spaces (indent - base))
    cases js with
    | nil =>
      have := Val.emptyArray (ops := ops) (lits := lits) _ rest hsp
      rw [output]
      simpa [chr] using this
    | cons j js =>
      have := Val.array (ops := ops) (lits := lits) (whenPretty pretty c!"\n" ++ whenPretty pretty (spaces indent)) _ _ rest
        (spaces_app (spaces_whenPretty _ spaces_lf) (spaces_whenPretty _ (spaces_spaces _)))
        (items_print pretty base indent (whenPretty pretty c!"\n" ++ whenPretty pretty (spaces (indent - base))) rest
          (spaces_app (spaces_whenPretty _ spaces_lf) hsp) js j (ih j (.head _)) (fun j hj => ih j (.tail _ hj)))
      rw [output]
      simpa [chr] using this
  | obj ms hn hk hm ih =>
    intro pretty base indent rest hr
    have hsp := spaces_whenPretty pretty (spaces_spaces (indent - base))
    cases ms with
    | nil =>
      have := Val.emptyObject (ops := ops) (lits := lits) _ rest hsp
      rw [output]
      simpa [chr] using this
    | cons m ms =>
      obtain ⟨k, v⟩ := m
      have := Val.object (ops := ops) (lits := lits) (whenPretty pretty c!"\n" ++ whenPretty pretty (spaces indent)) _ _ rest
        (spaces_app (spaces_whenPretty _ spaces_lf) (spaces_whenPretty _ (spaces_spaces _)))
        (members_print pretty base indent (whenPretty pretty c!"\n" ++ whenPretty pretty (spaces (indent - base))) rest
          (spaces_app (spaces_whenPretty _ spaces_lf) hsp) ms k v (hk (k, v) (.head _)).2.1 (ih (k, v) (.head _))
          (fun m hm => ⟨(hk m (.tail _ hm)).2.1, ih m (.tail _ hm)⟩))
      rw [collapse_nodup _ hn] at this
      rw [output, outputMember]
      simpa [chr] using this

/-- All characters written satisfy `P`, if the ASCII characters and those of the strings do. -/
theorem written_all {ops : FloatOps F} {Q : Str → Prop} {P : Chr → Prop}
    (ha : ∀ b : UInt8, 0x01 ≤ b → b ≤ 0x7F → P (chr b)) (hq : ∀ s, Q s → ∀ c ∈ s, P c) {j : Json F}
    (h : Written ops Q j) : ∀ pretty base indent, ∀ c ∈ output ops pretty base indent j, P c := by
  have happ : ∀ {a b : Str}, (∀ c ∈ a, P c) → (∀ c ∈ b, P c) → ∀ c ∈ a ++ b, P c := by
    intro a b h1 h2 c hc
    rcases List.mem_append.mp hc with h | h
    · exact h1 c h
    · exact h2 c h
  have hsp : ∀ {a : Str} (pretty : Bool), Spaces a → ∀ c ∈ whenPretty pretty a, P c := by
    intro a pretty hsa c hc
    have := spaces_whenPretty pretty hsa c hc
    simp only [Space, List.mem_cons, List.not_mem_nil, or_false] at this
    rcases this with rfl | rfl | rfl | rfl | rfl | rfl <;> exact ha _ (by decide) (by decide)
  have hone : ∀ b : UInt8, 0x01 ≤ b → b ≤ 0x7F → ∀ c ∈ [Chr.mk [b]], P c := by
    intro b h1 h2 c hc
    rw [List.mem_singleton.mp hc]; exact ha b h1 h2
  have hnum : ∀ {t : Str}, (∀ d ∈ t, NumChar d) → ∀ c ∈ t, P c := by
    intro t ht c hc
    obtain ⟨b, h1, h2, rfl⟩ := numChar_ascii (ht c hc)
    exact ha b h1 h2
  induction h with
  | null =>
    intro pretty base indent c hc
    simp only [output, Str.valueOfNull, List.map_cons, List.map_nil, List.mem_cons, List.not_mem_nil, or_false] at hc
    rcases hc with rfl | rfl | rfl | rfl <;> exact ha _ (by decide) (by decide)
  | bool b =>
    intro pretty base indent c hc
    cases b <;>
      simp only [output, Str.valueOfBool, if_true, Bool.false_eq_true, if_false, List.map_cons, List.map_nil,
        List.mem_cons, List.not_mem_nil, or_false] at hc
    · rcases hc with rfl | rfl | rfl | rfl | rfl <;> exact ha _ (by decide) (by decide)
    · rcases hc with rfl | rfl | rfl | rfl <;> exact ha _ (by decide) (by decide)
  | int i =>
    intro pretty base indent
    obtain ⟨c, t, he, hc, ht, hc'⟩ := intLit_numChars (intChars_lit i)
    rw [output, he]
    apply hnum
    intro d hd
    rcases List.mem_cons.mp hd with rfl | hd
    · exact numStart_numChar hc
    · exact .inl (ht d hd)
  | float f _ h =>
    intro pretty base indent
    rw [output]
    apply hnum
    intro d hd
    obtain ⟨b, hb, rfl⟩ := List.mem_map.mp hd
    exact h b hb
  | str s h =>
    intro pretty base indent
    rw [output]
    exact happ (happ (hone _ (by decide) (by decide)) (hq s h)) (hone _ (by decide) (by decide))
  | arr js hj ih =>
    intro pretty base indent
    have hitems : ∀ js' : List (Json F), (∀ j ∈ js', j ∈ js) → ∀ c ∈ outputItems ops pretty base indent js', P c := by
      intro js'
      induction js' with
      | nil => intro _ c hc; rw [outputItems] at hc; cases hc
      | cons j js' ih' =>
        intro hsub
        rw [outputItems]
        exact happ (happ (happ (happ (hone _ (by decide) (by decide)) (hsp _ spaces_lf)) (hsp _ (spaces_spaces _)))
          (ih j (hsub j (.head _)) pretty base _)) (ih' fun x hx => hsub x (.tail _ hx))
    cases js with
    | nil =>
      rw [output]
      exact happ (happ (happ (hone _ (by decide) (by decide)) (by simp)) (hsp _ (spaces_spaces _)))
        (hone _ (by decide) (by decide))
    | cons j js =>
      rw [output]
      refine happ (happ (happ (hone _ (by decide) (by decide)) ?_) (hsp _ (spaces_spaces _)))
        (hone _ (by decide) (by decide))
      exact happ (happ (hsp _ spaces_lf) (happ (happ (hsp _ (spaces_spaces _)) (ih j (.head _) pretty base _))
        (hitems js fun x hx => .tail _ hx))) (hsp _ spaces_lf)
  | obj ms hk hm ih =>
    intro pretty base indent
    have hmem : ∀ m ∈ ms, ∀ c ∈ outputMember ops pretty base indent m, P c := by
      intro m hm
      obtain ⟨k, v⟩ := m
      rw [outputMember]
      exact happ (happ (happ (happ (happ (happ (hsp _ (spaces_spaces _)) (hone _ (by decide) (by decide)))
        (hq k (hk _ hm))) (hone _ (by decide) (by decide))) (hone _ (by decide) (by decide))) (hsp _ spaces_sp))
        (ih _ hm pretty base _)
    have hmems : ∀ ms' : List (Str × Json F), (∀ m ∈ ms', m ∈ ms) → ∀ c ∈ outputMembers ops pretty base indent ms', P c := by
      intro ms'
      induction ms' with
      | nil => intro _ c hc; rw [outputMembers] at hc; cases hc
      | cons m ms' ih' =>
        intro hsub
        rw [outputMembers]
        exact happ (happ (happ (hone _ (by decide) (by decide)) (hsp _ spaces_lf)) (hmem m (hsub m (.head _))))
          (ih' fun x hx => hsub x (.tail _ hx))
    cases ms with
    | nil =>
      rw [output]
      exact happ (happ (happ (hone _ (by decide) (by decide)) (by simp)) (hsp _ (spaces_spaces _)))
        (hone _ (by decide) (by decide))
    | cons m ms =>
      rw [output]
      refine happ (happ (happ (hone _ (by decide) (by decide)) ?_) (hsp _ (spaces_spaces _)))
        (hone _ (by decide) (by decide))
      exact happ (happ (hsp _ spaces_lf) (happ (hmem m (.head _)) (hmems ms fun x hx => .tail _ hx))) (hsp _ spaces_lf)

theorem Printable.written {ops : FloatOps F} {lits : Bool} {j : Json F} (h : Printable ops lits j) : Written ops (Quotable lits) j := by
  induction h with
  | null _ => exact .null
  | bool b _ => exact .bool b
  | int i _ _ => exact .int i
  | float f h =>
    obtain ⟨c, t, he, hc, ht, hf, hs⟩ := h
    refine .float f (fun h => by rw [h] at he; cases he) fun b hb => ?_
    have : chr b ∈ c :: t := he ▸ List.mem_map_of_mem hb
    rcases List.mem_cons.mp this with e | h
    · rw [e]; exact numStart_numChar hc
    · exact ht _ h
  | str s h _ => exact .str s h
  | arr js _ ih => exact .arr js ih
  | obj ms _ hk _ ih => exact .obj ms hk ih

theorem output_all {ops : FloatOps F} {lits : Bool} {P : Chr → Prop}
    (ha : ∀ b : UInt8, 0x01 ≤ b → b ≤ 0x7F → P (chr b)) (hq : ∀ s, Quotable lits s → ∀ c ∈ s, P c) {j : Json F}
    (h : Printable ops lits j) : ∀ pretty base indent, ∀ c ∈ output ops pretty base indent j, P c :=
  written_all ha hq (Printable.written h)

end Caitlyn
