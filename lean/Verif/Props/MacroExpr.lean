import Verif.Model.MacroExpr

/-! # Property C144: the values in the message of a failing comparison -/

namespace Caitlyn
open MacroExpr

namespace MacroExpr

theorem split_unique {pre pre' post post' : List (Op × Atom)} {x x' : Op × Atom} (e : pre ++ x :: post = pre' ++ x' :: post')
    (h1 : ∀ y ∈ pre, y.1.level ≤ x.1.level) (h2 : ∀ y ∈ post, y.1.level < x.1.level)
    (h3 : ∀ y ∈ pre', y.1.level ≤ x'.1.level) (h4 : ∀ y ∈ post', y.1.level < x'.1.level) :
    pre = pre' ∧ x = x' ∧ post = post' := by
  rcases List.append_eq_append_iff.mp e with ⟨m, e1, e2⟩ | ⟨m, e1, e2⟩
  · cases m with
    | nil => simp only [List.nil_append, List.cons.injEq] at e2; simp_all
    | cons y m =>
      simp only [List.cons_append, List.cons.injEq] at e2
      obtain ⟨rfl, rfl⟩ := e2
      have a := h3 x (by rw [e1]; simp)
      have b := h2 x' (by simp)
      omega
  · cases m with
    | nil => simp only [List.nil_append, List.cons.injEq] at e2; simp_all
    | cons y m =>
      simp only [List.cons_append, List.cons.injEq] at e2
      obtain ⟨rfl, rfl⟩ := e2
      have a := h1 x' (by rw [e1]; simp)
      have b := h4 x (by simp)
      omega

theorem Parse.unique {a rest t t'} (p : Parse a rest t) (p' : Parse a rest t') : t = t' := by
  induction p generalizing t' with
  | leaf a =>
    generalize hr : ([] : List (Op × Atom)) = r at p'
    cases p' with
    | leaf => rfl
    | node => simp at hr
  | @node a pre l op b post r p1 p2 h1 h2 i1 i2 =>
    generalize hr : pre ++ (op, b) :: post = rest at p'
    cases p' with
    | leaf => simp at hr
    | @node _ pre' l' op' b' post' r' q1 q2 h3 h4 =>
      obtain ⟨rfl, e, rfl⟩ := split_unique hr h1 h2 h3 h4
      simp only [Prod.mk.injEq] at e
      obtain ⟨rfl, rfl⟩ := e
      rw [i1 q1, i2 q2]

theorem exists_split (x : Op × Atom) (rest : List (Op × Atom)) : ∃ pre y post, x :: rest = pre ++ y :: post ∧
    (∀ z ∈ pre, z.1.level ≤ y.1.level) ∧ ∀ z ∈ post, z.1.level < y.1.level := by
  induction rest generalizing x with
  | nil => exact ⟨[], x, [], rfl, by simp, by simp⟩
  | cons x' rest ih =>
    obtain ⟨pre, y, post, e, h1, h2⟩ := ih x'
    by_cases h : x.1.level ≤ y.1.level
    · refine ⟨x :: pre, y, post, by rw [e]; rfl, ?_, h2⟩
      intro z hz
      rcases List.mem_cons.mp hz with rfl | hz
      · exact h
      · exact h1 z hz
    · refine ⟨[], x, x' :: rest, rfl, by simp, ?_⟩
      intro z hz
      rw [e] at hz
      rcases List.mem_append.mp hz with hz | hz
      · have := h1 z hz; omega
      · rcases List.mem_cons.mp hz with rfl | hz
        · omega
        · have := h2 z hz; omega

theorem Parse.exists (a : Atom) (rest : List (Op × Atom)) : ∃ t, Parse a rest t := by
  generalize hn : rest.length = n
  induction n using Nat.strongRecOn generalizing a rest with
  | _ n ih =>
    cases rest with
    | nil => exact ⟨_, .leaf a⟩
    | cons x rest =>
      obtain ⟨pre, ⟨op, b⟩, post, e, h1, h2⟩ := exists_split x rest
      have hl : pre.length + post.length + 1 = n := by rw [← hn, e]; simp; omega
      obtain ⟨l, hl1⟩ := ih pre.length (by omega) a pre rfl
      obtain ⟨r, hr1⟩ := ih post.length (by omega) b post rfl
      exact ⟨_, by rw [e]; exact .node hl1 hr1 h1 h2⟩

/-- The atoms of an expression. -/
def Tree.atoms : Tree → List Atom
  | .leaf a => [a]
  | .node l _ r => l.atoms ++ r.atoms

theorem Parse.atoms {a rest t} (p : Parse a rest t) : t.atoms = a :: rest.map Prod.snd := by
  induction p with
  | leaf => rfl
  | node _ _ _ _ i1 i2 => simp [Tree.atoms, i1, i2]

theorem Tree.type_int {t : Tree} (h : t.type = some .int) : ∀ a ∈ t.atoms, ∃ i, a = .int i := by
  induction t with
  | leaf a => cases a <;> simp [Tree.type, Tree.atoms] at h ⊢
  | node l op r i1 i2 =>
    simp only [Tree.type] at h
    split at h
    · rename_i e1 e2
      intro a ha
      simp only [Tree.atoms, List.mem_append] at ha
      exact ha.elim (i1 e1 a) (i2 e2 a)
    · split at h <;> simp at h
    · split at h <;> simp at h
    · simp at h

theorem Tree.ints_type {t : Tree} (h : ∀ a ∈ t.atoms, ∃ i, a = .int i) : t.type = some .int := by
  induction t with
  | leaf a =>
    obtain ⟨i, rfl⟩ := h a (by simp [Tree.atoms])
    rfl
  | node l op r i1 i2 =>
    simp only [Tree.type, i1 (fun a ha => h a (by simp [Tree.atoms, ha])), i2 (fun a ha => h a (by simp [Tree.atoms, ha]))]

theorem Tree.type_ostream {t : Tree} (h : t.type = some .ostream) : t = .leaf .oss ∨
    ∃ l r, t = .node l .shl r ∧ l.type = some .ostream ∧ (r.type = some .int ∨ r.type = some .text) := by
  cases t with
  | leaf a => cases a <;> simp [Tree.type] at h ⊢
  | node l op r =>
    right
    simp only [Tree.type] at h
    split at h
    · simp at h
    · rename_i e1 e2
      split at h
      · subst_vars; exact ⟨l, r, rfl, e1, .inl e2⟩
      · simp at h
    · rename_i e1 e2
      split at h
      · subst_vars; exact ⟨l, r, rfl, e1, .inr e2⟩
      · simp at h
    · simp at h

theorem Tree.type_text {t : Tree} (h : t.type = some .text) : ∃ x, t = .leaf (.text x) := by
  cases t with
  | leaf a => cases a <;> simp [Tree.type] at h ⊢
  | node l op r =>
    simp only [Tree.type] at h
    split at h
    · simp at h
    · split at h <;> simp at h
    · split at h <;> simp at h
    · simp at h

/-- An expression that begins with the stream and is well-formed has `<<` only, apart from operators that bind more tightly. -/
theorem Parse.well_formed {rest t ty} (p : Parse .oss rest t) (h : t.type = some ty) :
    ty = .ostream ∧ ∀ x ∈ rest, x.1 = .shl ∨ x.1.level < Op.shl.level := by
  have ho : Atom.oss ∈ t.atoms := by rw [p.atoms]; simp
  have hty : ty = .ostream := by
    cases ty with
    | ostream => rfl
    | int => obtain ⟨i, hi⟩ := Tree.type_int h _ ho; cases hi
    | text =>
      obtain ⟨x, rfl⟩ := Tree.type_text h
      simp [Tree.atoms] at ho
  subst hty
  refine ⟨rfl, ?_⟩
  generalize ha : Atom.oss = a at p
  induction p with
  | leaf => simp
  | @node a pre l op b post r p1 p2 h1 h2 i1 i2 =>
    rcases Tree.type_ostream h with e | ⟨l', r', e, hl, hr⟩
    · simp at e
    · simp only [Tree.node.injEq] at e
      obtain ⟨rfl, rfl, rfl⟩ := e
      have hl' := i1 (by rw [p1.atoms, ha]; simp) hl ha
      intro x hx
      rcases List.mem_append.mp hx with hx | hx
      · exact hl' x hx
      · rcases List.mem_cons.mp hx with rfl | hx
        · exact .inl rfl
        · exact .inr (h2 x hx)

/-- A literal after the expression. -/
theorem Parse.snoc_text {rest t} (ev : Op → Int → Int → Int) (p : Parse .oss rest t) (h : t.type = some .ostream) (x : List UInt8) :
    ∃ t', Parse .oss (rest ++ [(.shl, .text x)]) t' ∧ t'.type = some .ostream ∧ t'.written ev = t.written ev ++ x := by
  refine ⟨.node t .shl (.leaf (.text x)), .node p (.leaf _) ?_ (by simp), by simp [Tree.type, h], by simp [Tree.written]⟩
  intro y hy
  rcases (p.well_formed h).2 y hy with e | e
  · rw [e]; exact Nat.le_refl _
  · exact Nat.le_of_lt e

/-- Numbers with tight operators after the expression. -/
theorem Parse.snoc_piece {rest t post r} (ev : Op → Int → Int → Int) {i : Int} (p : Parse .oss rest t) (h : t.type = some .ostream)
    (q : Parse (.int i) post r) (hp : ∀ x ∈ post, x.1.level < Op.shl.level ∧ ∃ j, x.2 = .int j) :
    ∃ t', Parse .oss (rest ++ (.shl, .int i) :: post) t' ∧ t'.type = some .ostream ∧
      t'.written ev = t.written ev ++ stdToString (r.value ev) := by
  have hi : ∀ a ∈ r.atoms, ∃ i, a = .int i := by
    rw [q.atoms]
    intro a ha
    rcases List.mem_cons.mp ha with rfl | ha
    · exact ⟨i, rfl⟩
    · obtain ⟨x, hx, rfl⟩ := List.mem_map.mp ha
      exact (hp x hx).2
  refine ⟨.node t .shl r, .node p q ?_ (fun x hx => (hp x hx).1), by simp [Tree.type, h, Tree.ints_type hi], ?_⟩
  · intro y hy
    rcases (p.well_formed h).2 y hy with e | e
    · rw [e]; exact Nat.le_refl _
    · exact Nat.le_of_lt e
  · cases r with
    | leaf a =>
      obtain ⟨j, rfl⟩ := hi a (by simp [Tree.atoms])
      simp [Tree.written]
    | node => simp [Tree.written]

end MacroExpr

/-- The operand as it was meant: the expression in parentheses. -/
def Spec.Means (v : MacroExpr.Operand) (ev : Op → Int → Int → Int) (n : Int) : Prop := ∃ t, Parse (.int v.first) v.tokens t ∧ t.value ev = n

/-- The operand has only operators that bind more tightly than `<<`. -/
def Spec.Tight (v : MacroExpr.Operand) : Prop := ∀ x ∈ v.rest, x.1.level < Op.shl.level

/-- Every sequence of operands and operators has exactly one meaning in the grammar. -/
theorem C144_grammar (a : Atom) (rest : List (Op × Atom)) : ∃ t, Parse a rest t ∧ ∀ t', Parse a rest t' → t' = t := by
  obtain ⟨t, p⟩ := Parse.exists a rest
  exact ⟨t, p, fun t' p' => p'.unique p⟩

/-- C144. If the operators in the operands bind more tightly than `<<`, that is `*`, `/`, `%`, `+` and `-`, the statement is well-formed and
writes the values of both operands. Partial: for other operators see `C144_compiles_fails` and `C144_shift_fails`. -/
theorem C144_message_partial (ev : Op → Int → Int → Int) (text neg : List UInt8) (v1 v2 : MacroExpr.Operand) (n1 n2 : Int)
    (t1 : Spec.Tight v1) (t2 : Spec.Tight v2) (m1 : Spec.Means v1 ev n1) (m2 : Spec.Means v2 ev n2) (t : Tree)
    (p : Parse .oss (expansion text neg v1 v2) t) :
    t.type = some .ostream ∧
      t.written ev = text ++ b!" (" ++ stdToString n1 ++ neg ++ stdToString n2 ++ b!")" := by
  obtain ⟨r1, q1, rfl⟩ := m1
  obtain ⟨r2, q2, rfl⟩ := m2
  have tok : ∀ v : MacroExpr.Operand, Spec.Tight v → ∀ x ∈ v.tokens, x.1.level < Op.shl.level ∧ ∃ j, x.2 = .int j := by
    intro v hv x hx
    obtain ⟨y, hy, rfl⟩ := List.mem_map.mp hx
    exact ⟨hv y hy, _, rfl⟩
  obtain ⟨u1, p1, y1, w1⟩ := (Parse.leaf .oss).snoc_text ev rfl text
  obtain ⟨u2, p2, y2, w2⟩ := p1.snoc_text ev y1 [0x20, 0x28]
  obtain ⟨u3, p3, y3, w3⟩ := p2.snoc_piece ev y2 q1 (tok v1 t1)
  obtain ⟨u4, p4, y4, w4⟩ := p3.snoc_text ev y3 neg
  obtain ⟨u5, p5, y5, w5⟩ := p4.snoc_piece ev y4 q2 (tok v2 t2)
  obtain ⟨u6, p6, y6, w6⟩ := p5.snoc_text ev y5 [0x29]
  have e : t = u6 := p.unique (by simpa [expansion] using p6)
  subst e
  refine ⟨y6, ?_⟩
  rw [w6, w5, w4, w3, w2, w1]
  simp [Tree.written]

example : Spec.Tight ⟨2, [(.mul, 3), (.sub, 1)]⟩ ∧ Spec.Means ⟨2, [(.mul, 3), (.sub, 1)]⟩ (fun op a b => match op with | .mul => a * b | _ => a - b) 5 := by
  refine ⟨by simp [Spec.Tight, Op.level], _, .node (pre := [(.mul, .int 3)]) (.node (pre := []) (.leaf _) (.leaf _) (by simp) (by simp)) (.leaf _)
    (by simp [Op.level]) (by simp), rfl⟩

/-- What the macro shows of an operand: the operand is cut at each `<<`, and the values of the pieces follow each other. -/
inductive Spec.ShownCut (ev : Op → Int → Int → Int) : MacroExpr.Operand → List UInt8 → Prop
  | last {v n} : Spec.Tight v → Spec.Means v ev n → Spec.ShownCut ev v (stdToString n)
  | cut {i l j l' n s} : Spec.Tight ⟨i, l⟩ → Spec.Means ⟨i, l⟩ ev n → Spec.ShownCut ev ⟨j, l'⟩ s →
      Spec.ShownCut ev ⟨i, l ++ (.shl, j) :: l'⟩ (stdToString n ++ s)

namespace MacroExpr

theorem tight_tokens {v : Operand} (hv : Spec.Tight v) : ∀ x ∈ v.tokens, x.1.level < Op.shl.level ∧ ∃ j, x.2 = .int j := by
  intro x hx
  obtain ⟨y, hy, rfl⟩ := List.mem_map.mp hx
  exact ⟨hv y hy, _, rfl⟩

theorem Parse.snoc_operand {rest t v s} (ev : Op → Int → Int → Int) (p : Parse .oss rest t) (h : t.type = some .ostream)
    (w : Spec.ShownCut ev v s) : ∃ t', Parse .oss (rest ++ (.shl, .int v.first) :: v.tokens) t' ∧ t'.type = some .ostream ∧
      t'.written ev = t.written ev ++ s := by
  induction w generalizing rest t with
  | last ht hm =>
    obtain ⟨r, q, rfl⟩ := hm
    exact p.snoc_piece ev h q (tight_tokens ht)
  | @cut i l j l' n s ht hm _ ih =>
    obtain ⟨r, q, rfl⟩ := hm
    obtain ⟨u, p1, y1, w1⟩ := p.snoc_piece ev h q (tight_tokens ht)
    obtain ⟨u', p2, y2, w2⟩ := ih p1 y1
    refine ⟨u', ?_, y2, ?_⟩
    · simpa [Operand.tokens] using p2
    · rw [w2, w1, List.append_assoc]

theorem cut_first (l : List (Op × Int)) (h : ∀ x ∈ l, x.1 = .shl ∨ x.1.level < Op.shl.level) :
    (∀ x ∈ l, x.1.level < Op.shl.level) ∨
      ∃ a j b, l = a ++ (.shl, j) :: b ∧ (∀ x ∈ a, x.1.level < Op.shl.level) ∧ ∀ x ∈ b, x.1 = .shl ∨ x.1.level < Op.shl.level := by
  induction l with
  | nil => left; simp
  | cons x l ih =>
    have hl : ∀ y ∈ l, y.1 = .shl ∨ y.1.level < Op.shl.level := fun y hy => h y (by simp [hy])
    rcases h x (by simp) with e | e
    · right
      exact ⟨[], x.2, l, by rw [← e]; rfl, by simp, hl⟩
    · rcases ih hl with t | ⟨a, j, b, rfl, ha, hb⟩
      · left
        intro y hy
        rcases List.mem_cons.mp hy with rfl | hy
        · exact e
        · exact t y hy
      · right
        refine ⟨x :: a, j, b, rfl, ?_, hb⟩
        intro y hy
        rcases List.mem_cons.mp hy with rfl | hy
        · exact e
        · exact ha y hy

theorem means (v : Operand) (ev : Op → Int → Int → Int) : ∃ n, Spec.Means v ev n := by
  obtain ⟨t, p⟩ := Parse.exists (.int v.first) v.tokens
  exact ⟨_, t, p, rfl⟩

theorem shown (ev : Op → Int → Int → Int) (v : Operand) (h : ∀ x ∈ v.rest, x.1 = .shl ∨ x.1.level < Op.shl.level) :
    ∃ s, Spec.ShownCut ev v s := by
  obtain ⟨i, l⟩ := v
  generalize hn : l.length = n
  induction n using Nat.strongRecOn generalizing i l with
  | _ n ih =>
    obtain ⟨n1, m1⟩ := means ⟨i, l⟩ ev
    rcases cut_first l h with t | ⟨a, j, b, rfl, ha, hb⟩
    · exact ⟨_, .last t m1⟩
    · obtain ⟨s, w⟩ := ih b.length (by rw [← hn]; simp; omega) j b hb rfl
      obtain ⟨n2, m2⟩ := means ⟨i, a⟩ ev
      exact ⟨_, .cut ha m2 w⟩

theorem expansion_shown (ev : Op → Int → Int → Int) (text neg : List UInt8) {v1 v2 : Operand} {s1 s2 : List UInt8}
    (w1 : Spec.ShownCut ev v1 s1) (w2 : Spec.ShownCut ev v2 s2) {t : Tree} (p : Parse .oss (expansion text neg v1 v2) t) :
    t.type = some .ostream ∧ t.written ev = text ++ [0x20, 0x28] ++ s1 ++ neg ++ s2 ++ [0x29] := by
  obtain ⟨u1, p1, y1, e1⟩ := (Parse.leaf .oss).snoc_text ev rfl text
  obtain ⟨u2, p2, y2, e2⟩ := p1.snoc_text ev y1 [0x20, 0x28]
  obtain ⟨u3, p3, y3, e3⟩ := p2.snoc_operand ev y2 w1
  obtain ⟨u4, p4, y4, e4⟩ := p3.snoc_text ev y3 neg
  obtain ⟨u5, p5, y5, e5⟩ := p4.snoc_operand ev y4 w2
  obtain ⟨u6, p6, y6, e6⟩ := p5.snoc_text ev y5 [0x29]
  have e : t = u6 := p.unique (by simpa [expansion] using p6)
  subst e
  refine ⟨y6, ?_⟩
  rw [e6, e5, e4, e3, e2, e1]
  simp [Tree.written]

end MacroExpr

/-- C144, exactly: the macro compiles if and only if every operator in the operands binds more tightly than `<<` or is `<<` itself. So
`ASSERT_EQ(x & 1, 0)`, `ASSERT_EQ(a < b, true)`, `ASSERT_EQ(x >> 1, 2)` and the like are rejected, although the operands can be compared and
printed. -/
theorem C144_compiles_fails (text neg : List UInt8) (v1 v2 : MacroExpr.Operand) (t : Tree) (p : Parse .oss (expansion text neg v1 v2) t) :
    (∃ ty, t.type = some ty) ↔ ∀ x ∈ v1.rest ++ v2.rest, x.1 = .shl ∨ x.1.level < Op.shl.level := by
  constructor
  · rintro ⟨ty, h⟩ x hx
    refine (p.well_formed h).2 (x.1, .int x.2) ?_
    have m : (x.1, Atom.int x.2) ∈ v1.tokens ∨ (x.1, Atom.int x.2) ∈ v2.tokens :=
      (List.mem_append.mp hx).imp (fun hx => List.mem_map.mpr ⟨x, hx, rfl⟩) (fun hx => List.mem_map.mpr ⟨x, hx, rfl⟩)
    rcases m with m | m <;> simp [expansion, m]
  · intro h
    obtain ⟨s1, w1⟩ := shown (fun _ _ _ => 0) v1 fun x hx => h x (List.mem_append_left _ hx)
    obtain ⟨s2, w2⟩ := shown (fun _ _ _ => 0) v2 fun x hx => h x (List.mem_append_right _ hx)
    exact ⟨_, (expansion_shown _ text neg w1 w2 p).1⟩

/-- The same with the operators named: nothing but `*`, `/`, `%`, `+`, `-` and `<<` is allowed outside parentheses. -/
theorem C144_operators_fails (text neg : List UInt8) (v1 v2 : MacroExpr.Operand) (t : Tree)
    (p : Parse .oss (expansion text neg v1 v2) t) :
    (∃ ty, t.type = some ty) ↔ ∀ x ∈ v1.rest ++ v2.rest, x.1 ∈ [Op.mul, .div, .mod, .add, .sub, .shl] := by
  rw [C144_compiles_fails text neg v1 v2 t p]
  have h : ∀ o : Op, (o = .shl ∨ o.level < Op.shl.level) ↔ o ∈ [Op.mul, .div, .mod, .add, .sub, .shl] := by
    intro o; cases o <;> decide
  exact ⟨fun g x hx => (h x.1).mp (g x hx), fun g x hx => (h x.1).mpr (g x hx)⟩

/-- The groups of binary operators in the C++ standard, from the one that binds most tightly. -/
def Spec.groups : List (List Op) :=
  [[.mul, .div, .mod], [.add, .sub], [.shl, .shr], [.lt, .gt, .le, .ge], [.eq, .ne], [.band], [.bxor], [.bor], [.land], [.lor]]

/-- C144: the operators bind as the C++ standard says. `a o b p c` is `(a o b) p c` if `o` is in the group of `p` or in one before it,
and `a o (b p c)` otherwise. -/
theorem C144_precedence (a b c : Atom) (o p : Op) (t : Tree) : Parse a [(o, b), (p, c)] t ↔
    t = if Spec.groups.findIdx (o ∈ ·) ≤ Spec.groups.findIdx (p ∈ ·)
      then .node (.node (.leaf a) o (.leaf b)) p (.leaf c) else .node (.leaf a) o (.node (.leaf b) p (.leaf c)) := by
  have h : Spec.groups.findIdx (o ∈ ·) ≤ Spec.groups.findIdx (p ∈ ·) ↔ o.level ≤ p.level := by
    have hl : ∀ o : Op, Spec.groups.findIdx (o ∈ ·) + 1 = o.level := by intro o; cases o <;> decide
    rw [← hl o, ← hl p]
    omega
  have q : Parse a [(o, b), (p, c)] (if Spec.groups.findIdx (o ∈ ·) ≤ Spec.groups.findIdx (p ∈ ·)
      then .node (.node (.leaf a) o (.leaf b)) p (.leaf c) else .node (.leaf a) o (.node (.leaf b) p (.leaf c))) := by
    split
    · next hle =>
      have := h.mp hle
      exact .node (pre := [(o, b)]) (.node (pre := []) (.leaf _) (.leaf _) (by simp) (by simp)) (.leaf _) (by simpa using this) (by simp)
    · next hle =>
      have := mt h.mpr hle
      exact .node (pre := []) (.leaf _) (.node (pre := []) (.leaf _) (.leaf _) (by simp) (by simp)) (by simp) (by simpa using this)
  exact ⟨fun r => r.unique q, fun e => e ▸ q⟩

/-- Both sides occur: `6 & 1` is rejected, `6 << 1` and `6 * 1` are not. -/
example (text neg : List UInt8) :
    (∀ t, Parse .oss (expansion text neg ⟨6, [(.band, 1)]⟩ ⟨0, []⟩) t → t.type = none) ∧
    (∀ t, Parse .oss (expansion text neg ⟨6, [(.shl, 1)]⟩ ⟨0, []⟩) t → ∃ ty, t.type = some ty) := by
  refine ⟨fun t p => ?_, fun t p => (C144_compiles_fails _ _ _ _ t p).mpr (by simp)⟩
  cases h : t.type with
  | none => rfl
  | some ty =>
    have := (C144_compiles_fails _ _ _ _ t p).mp ⟨ty, h⟩ (.band, 1) (by simp)
    simp [Op.level] at this

/-- C144: whenever the macro compiles, the message shows each operand cut at its `<<`, so the operand `a << b` of two numbers appears as
`a` followed by `b` instead of its value. -/
theorem C144_shift_fails (ev : Op → Int → Int → Int) (text neg : List UInt8) (v1 v2 : MacroExpr.Operand)
    (t : Tree) (p : Parse .oss (expansion text neg v1 v2) t) (h : ∃ ty, t.type = some ty) :
    ∃ s1 s2, Spec.ShownCut ev v1 s1 ∧ Spec.ShownCut ev v2 s2 ∧
      t.written ev = text ++ b!" (" ++ s1 ++ neg ++ s2 ++ b!")" := by
  have hc := (C144_compiles_fails text neg v1 v2 t p).mp h
  obtain ⟨s1, w1⟩ := shown ev v1 fun x hx => hc x (List.mem_append_left _ hx)
  obtain ⟨s2, w2⟩ := shown ev v2 fun x hx => hc x (List.mem_append_right _ hx)
  exact ⟨s1, s2, w1, w2, (expansion_shown ev text neg w1 w2 p).2⟩

/-- `ASSERT_EQ(1 << 3, 9)`: the message says `13 != 9`, the operand is 8. -/
theorem C144_example_fails (ev : Op → Int → Int → Int) (h8 : ev .shl 1 3 = 8) (text neg : List UInt8) (t : Tree)
    (p : Parse .oss (expansion text neg ⟨1, [(.shl, 3)]⟩ ⟨9, []⟩) t) :
    Spec.Means ⟨1, [(.shl, 3)]⟩ ev 8 ∧ t.written ev = text ++ b!" (13" ++ neg ++ b!"9)" := by
  have m : ∀ i, Spec.Means ⟨i, []⟩ ev i := fun i => ⟨.leaf (.int i), .leaf _, rfl⟩
  have w1 : Spec.ShownCut ev ⟨1, [(.shl, 3)]⟩ (stdToString 1 ++ stdToString 3) :=
    .cut (l := []) (by simp [Spec.Tight]) (m 1) (.last (by simp [Spec.Tight]) (m 3))
  have w2 : Spec.ShownCut ev ⟨9, []⟩ (stdToString 9) := .last (by simp [Spec.Tight]) (m 9)
  refine ⟨⟨.node (.leaf (.int 1)) .shl (.leaf (.int 3)), .node (pre := []) (.leaf _) (.leaf _) (by simp) (by simp), h8⟩, ?_⟩
  rw [(expansion_shown ev text neg w1 w2 p).2]
  have e : stdToString 1 = [0x31] ∧ stdToString 3 = [0x33] ∧ stdToString 9 = [0x39] := by decide +kernel
  rw [e.1, e.2.1, e.2.2]
  simp

/-! ## The evaluation of the operands -/

/-- What the first `k` calls of `<<` have written, if the first operand is shown as `s1`. -/
def Spec.written (text neg s1 : List UInt8) (k : Nat) : List UInt8 := ([text, b!" (", s1, neg].take k).flatten

/-- The operands are evaluated once each, in one order or the other: the first after `i` calls of `<<`, the second after `j` calls. Each finds
what has been written until then in the stream named `oss`. -/
inductive Spec.Evaluated (text neg : List UInt8) (f g : Shows σ) (s : σ) : List UInt8 → List UInt8 → σ → Prop
  | first {i j s1 s2 t t'} : i ≤ 2 → i ≤ j → j ≤ 4 → f (Spec.written text neg [] i) s = (s1, t) →
      g (Spec.written text neg s1 j) t = (s2, t') → Spec.Evaluated text neg f g s s1 s2 t'
  | second {i j s1 s2 t t'} : j ≤ i → i ≤ 2 → g (Spec.written text neg [] j) s = (s2, t) →
      f (Spec.written text neg [] i) t = (s1, t') → Spec.Evaluated text neg f g s s1 s2 t'

namespace MacroExpr

/-- The contents of the stream after `k` calls. -/
def content (text neg s1 s2 : List UInt8) (k : Nat) : List UInt8 := ([text, b!" (", s1, neg, s2, b!")"].take k).flatten

theorem content_four (text neg a b a' : List UInt8) {k : Nat} (hk : k ≤ 4) (h : a = a' ∨ k ≤ 2) :
    content text neg a b k = Spec.written text neg a' k := by
  rcases k with _ | _ | _ | _ | _ | k
  · rfl
  · rfl
  · rfl
  · rcases h with rfl | h
    · rfl
    · omega
  · rcases h with rfl | h
    · rfl
    · omega
  · omega

/-- What holds during the execution. -/
inductive Inv (text neg : List UInt8) (f g : Shows σ) (s : σ) : Progress σ → Prop
  | none {k a b} : k ≤ 2 → Inv text neg f g s ⟨content text neg a b k, k, .none, .none, s⟩
  | one {k i s1 t b} : k ≤ 4 → i ≤ 2 → i ≤ k → f (Spec.written text neg [] i) s = (s1, t) →
      Inv text neg f g s ⟨content text neg s1 b k, k, some s1, .none, t⟩
  | two {k j s2 t a} : k ≤ 2 → j ≤ k → g (Spec.written text neg [] j) s = (s2, t) →
      Inv text neg f g s ⟨content text neg a s2 k, k, .none, some s2, t⟩
  | both {k s1 s2 t} : k ≤ 6 → Spec.Evaluated text neg f g s s1 s2 t →
      Inv text neg f g s ⟨content text neg s1 s2 k, k, some s1, some s2, t⟩

theorem next_some {text neg a b w : List UInt8} {k : Nat} {v1 v2 : Option (List UInt8)} {t : σ} (h1 : v1 = some a ∨ v1 = none ∧ k ≤ 2)
    (h2 : v2 = some b ∨ v2 = none ∧ k ≤ 4) (h : (⟨content text neg a b k, k, v1, v2, t⟩ : Progress σ).next text neg = some w) :
    content text neg a b k ++ w = content text neg a b (k + 1) ∧ k + 1 ≤ 6 ∧ (v1 = none → k + 1 ≤ 2) ∧ (v2 = none → k + 1 ≤ 4) := by
  rcases k with _ | _ | _ | _ | _ | _ | k
  · simp only [Progress.next, Option.some.injEq] at h; subst h; simp [content]
  · simp only [Progress.next, Option.some.injEq] at h; subst h; simp [content]
  · simp only [Progress.next] at h; subst h; simp at h1; subst h1; simp [content]
  · simp only [Progress.next, Option.some.injEq] at h; subst h
    rcases h1 with rfl | ⟨_, h1⟩
    · simp [content]
    · omega
  · simp only [Progress.next] at h; subst h; simp at h2; subst h2
    rcases h1 with rfl | ⟨_, h1⟩
    · simp [content]
    · omega
  · simp only [Progress.next, Option.some.injEq] at h; subst h
    rcases h1 with rfl | ⟨_, h1⟩
    · rcases h2 with rfl | ⟨_, h2⟩
      · simp [content]
      · omega
    · omega
  · simp [Progress.next] at h

theorem Inv.step {text neg : List UInt8} {f g : Shows σ} {s : σ} {p q : Progress σ} (h : Inv text neg f g s p)
    (st : Step text neg f g p q) : Inv text neg f g s q := by
  cases st with
  | @call w hw =>
    cases h with
    | none hk =>
      obtain ⟨e, _, e1, _⟩ := next_some (.inr ⟨rfl, hk⟩) (.inr ⟨rfl, by omega⟩) hw
      simp only [e]
      exact .none (e1 rfl)
    | one hk hi hik hf =>
      obtain ⟨e, _, _, e2⟩ := next_some (.inl rfl) (.inr ⟨rfl, by omega⟩) hw
      simp only [e]
      exact .one (e2 rfl) hi (by omega) hf
    | two hk hjk hg =>
      obtain ⟨e, _, e1, _⟩ := next_some (.inr ⟨rfl, hk⟩) (.inl rfl) hw
      simp only [e]
      exact .two (e1 rfl) (by omega) hg
    | both hk he =>
      obtain ⟨e, e0, _, _⟩ := next_some (.inl rfl) (.inl rfl) hw
      simp only [e]
      exact .both e0 he
  | eval1 hn =>
    cases h with
    | @none k a b hk =>
      have e := content_four text neg a b [] (k := k) (by omega) (.inr hk)
      simp only [e]
      have := Inv.one (text := text) (neg := neg) (f := f) (g := g) (s := s) (b := []) (k := k) (by omega) hk (Nat.le_refl _) rfl
      rwa [content_four text neg _ [] [] (by omega) (.inr hk)] at this
    | one => simp at hn
    | @two k j s2 t a hk hjk hg =>
      have e := content_four text neg a s2 [] (k := k) (by omega) (.inr hk)
      simp only [e]
      have := Inv.both (k := k) (by omega) (Spec.Evaluated.second (text := text) (neg := neg) (f := f) (g := g) (s := s) hjk hk hg rfl)
      rwa [content_four text neg _ s2 [] (by omega) (.inr hk)] at this
    | both => simp at hn
  | eval2 hn =>
    cases h with
    | @none k a b hk =>
      have e := content_four text neg a b [] (k := k) (by omega) (.inr hk)
      simp only [e]
      have := Inv.two (text := text) (neg := neg) (f := f) (g := g) (s := s) (a := []) (k := k) hk (Nat.le_refl _) rfl
      rwa [content_four text neg [] _ [] (by omega) (.inr hk)] at this
    | @one k i s1 t b hk hi hik hf =>
      have e := content_four text neg s1 b s1 (k := k) hk (.inl rfl)
      simp only [e]
      have := Inv.both (k := k) (by omega) (Spec.Evaluated.first (text := text) (neg := neg) (f := f) (g := g) (s := s) hi hik hk hf rfl)
      rwa [content_four text neg s1 _ s1 hk (.inl rfl)] at this
    | two => simp at hn
    | both => simp at hn

theorem Inv.steps {text neg : List UInt8} {f g : Shows σ} {s : σ} {p0 p : Progress σ} (st : Steps text neg f g p0 p)
    (h : Inv text neg f g s p0) : Inv text neg f g s p := by
  induction st with
  | refl => exact h
  | tail _ h ih => exact ih.step h

theorem Steps.trans {text neg : List UInt8} {f g : Shows σ} {p q r : Progress σ} (a : Steps text neg f g p q) (b : Steps text neg f g q r) :
    Steps text neg f g p r := by
  induction b with
  | refl => exact a
  | tail _ h ih => exact .tail ih h

theorem Steps.calls {text neg : List UInt8} {f g : Shows σ} {a b : List UInt8} {v1 v2 : Option (List UInt8)} {t : σ} {k : Nat} (n : Nat)
    (h6 : k + n ≤ 6) (h1 : v1 = some a ∨ k + n ≤ 2) (h2 : v2 = some b ∨ k + n ≤ 4) :
    Steps text neg f g ⟨content text neg a b k, k, v1, v2, t⟩ ⟨content text neg a b (k + n), k + n, v1, v2, t⟩ := by
  induction n with
  | zero => exact .refl _
  | succ n ih =>
    refine .tail (ih (by omega) (h1.imp id (by omega)) (h2.imp id (by omega))) ?_
    have : ∃ w, (⟨content text neg a b (k + n), k + n, v1, v2, t⟩ : Progress σ).next text neg = some w ∧
        content text neg a b (k + n) ++ w = content text neg a b (k + n + 1) := by
      rw [← Nat.add_assoc] at h6 h1 h2
      clear ih
      generalize k + n = m at h6 h1 h2 ⊢
      rcases m with _ | _ | _ | _ | _ | _ | m
      · exact ⟨_, rfl, by simp [content]⟩
      · exact ⟨_, rfl, by simp [content]⟩
      · rcases h1 with rfl | h1
        · exact ⟨_, rfl, by simp [content]⟩
        · omega
      · exact ⟨_, rfl, by simp [content]⟩
      · rcases h2 with rfl | h2
        · exact ⟨_, rfl, by simp [content]⟩
        · omega
      · exact ⟨_, rfl, by simp [content]⟩
      · omega
    obtain ⟨w, hw, e⟩ := this
    have := Step.call (f := f) (g := g) hw
    simp only [e] at this
    exact this

end MacroExpr

/-- C144, the message exactly: the statement can end with a message if and only if it shows the two operands as evaluated once each, in either
order, where `oss` names the stream of the macro. A variable `oss` of the caller plays no role. -/
theorem C144_evaluation (text neg : List UInt8) (f g : Shows σ) (s : σ) (m : List UInt8) (s' : σ) :
    Message text neg f g s m s' ↔
      ∃ s1 s2, Spec.Evaluated text neg f g s s1 s2 s' ∧ m = text ++ b!" (" ++ s1 ++ neg ++ s2 ++ b!")" := by
  constructor
  · rintro ⟨p, st, hc, rfl, rfl⟩
    cases Inv.steps st (Inv.none (k := 0) (a := []) (b := []) (by omega)) with
    | none hk => simp only at hc; omega
    | one hk => simp only at hc; omega
    | two hk => simp only at hc; omega
    | @both k s1 s2 t hk he =>
      simp only at hc
      subst hc
      exact ⟨s1, s2, he, by simp [content]⟩
  · rintro ⟨s1, s2, he, rfl⟩
    refine ⟨⟨content text neg s1 s2 6, 6, some s1, some s2, s'⟩, ?_, rfl, by simp [content], rfl⟩
    have start : (⟨[], 0, none, none, s⟩ : Progress σ) = ⟨content text neg s1 s2 0, 0, none, none, s⟩ := rfl
    rw [start]
    cases he with
    | @first i j _ _ t _ hi hij hj hf hg =>
      have a := Steps.calls (text := text) (neg := neg) (f := f) (g := g) (a := s1) (b := s2) (v1 := none) (v2 := none) (t := s) (k := 0) i
        (by omega) (.inr (by omega)) (.inr (by omega))
      rw [Nat.zero_add] at a
      have e1 := Step.eval1 (text := text) (neg := neg) (f := f) (g := g) (p := ⟨content text neg s1 s2 i, i, none, none, s⟩) rfl
      simp only [content_four text neg s1 s2 [] (k := i) (by omega) (.inr hi), hf] at e1
      rw [← content_four text neg s1 s2 [] (k := i) (by omega) (.inr hi)] at e1
      have b := Steps.calls (text := text) (neg := neg) (f := f) (g := g) (a := s1) (b := s2) (v1 := some s1) (v2 := none) (t := t) (k := i) (j - i)
        (by omega) (.inl rfl) (.inr (by omega))
      rw [Nat.add_sub_cancel' hij] at b
      have e2 := Step.eval2 (text := text) (neg := neg) (f := f) (g := g) (p := ⟨content text neg s1 s2 j, j, some s1, none, t⟩) rfl
      simp only [content_four text neg s1 s2 s1 (k := j) hj (.inl rfl), hg] at e2
      rw [← content_four text neg s1 s2 s1 (k := j) hj (.inl rfl)] at e2
      have c := Steps.calls (text := text) (neg := neg) (f := f) (g := g) (a := s1) (b := s2) (v1 := some s1) (v2 := some s2) (t := s') (k := j)
        (6 - j) (by omega) (.inl rfl) (.inl rfl)
      rw [Nat.add_sub_cancel' (by omega)] at c
      exact ((a.tail e1).trans (b.tail e2)).trans c
    | @second i j _ _ t _ hji hi hg hf =>
      have a := Steps.calls (text := text) (neg := neg) (f := f) (g := g) (a := s1) (b := s2) (v1 := none) (v2 := none) (t := s) (k := 0) j
        (by omega) (.inr (by omega)) (.inr (by omega))
      rw [Nat.zero_add] at a
      have e1 := Step.eval2 (text := text) (neg := neg) (f := f) (g := g) (p := ⟨content text neg s1 s2 j, j, none, none, s⟩) rfl
      simp only [content_four text neg s1 s2 [] (k := j) (by omega) (.inr (by omega)), hg] at e1
      rw [← content_four text neg s1 s2 [] (k := j) (by omega) (.inr (by omega))] at e1
      have b := Steps.calls (text := text) (neg := neg) (f := f) (g := g) (a := s1) (b := s2) (v1 := none) (v2 := some s2) (t := t) (k := j) (i - j)
        (by omega) (.inr (by omega)) (.inl rfl)
      rw [Nat.add_sub_cancel' hji] at b
      have e2 := Step.eval1 (text := text) (neg := neg) (f := f) (g := g) (p := ⟨content text neg s1 s2 i, i, none, some s2, t⟩) rfl
      simp only [content_four text neg s1 s2 [] (k := i) (by omega) (.inr hi), hf] at e2
      rw [← content_four text neg s1 s2 [] (k := i) (by omega) (.inr hi)] at e2
      have c := Steps.calls (text := text) (neg := neg) (f := f) (g := g) (a := s1) (b := s2) (v1 := some s1) (v2 := some s2) (t := s') (k := i)
        (6 - i) (by omega) (.inl rfl) (.inl rfl)
      rw [Nat.add_sub_cancel' (by omega)] at c
      exact ((a.tail e1).trans (b.tail e2)).trans c

/-- Operands that mention no `oss` and do not change what the other one shows have exactly one message, the expected one. -/
theorem C144_independent_partial (text neg s1 s2 : List UInt8) (s : σ) (f g : σ → σ) (m : List UInt8) (s' : σ)
    (h : Message text neg (fun _ t => (s1, f t)) (fun _ t => (s2, g t)) s m s') :
    m = text ++ b!" (" ++ s1 ++ neg ++ s2 ++ b!")" := by
  obtain ⟨u1, u2, he, rfl⟩ := (C144_evaluation _ _ _ _ _ _ _).mp h
  cases he with
  | first _ _ _ hf hg =>
    simp only [Prod.mk.injEq] at hf hg
    rw [hf.1, hg.1]
  | second _ _ hg hf =>
    simp only [Prod.mk.injEq] at hf hg
    rw [hf.1, hg.1]

/-- There is such a message. -/
example (text neg s1 s2 : List UInt8) : Message text neg (fun _ t => (s1, t)) (fun _ t => (s2, t)) ()
    (text ++ b!" (" ++ s1 ++ neg ++ s2 ++ b!")") () :=
  (C144_evaluation _ _ _ _ _ _ _).mpr ⟨s1, s2, .first (i := 0) (j := 0) (by omega) (by omega) (by omega) rfl rfl, rfl⟩

/-- C144 fails for operands that mention a variable `oss` of the caller: `ASSERT_EQ(oss.str(), x)`, the usual way to test a `<<`, compares the
caller's stream, but the message shows what the macro itself has written so far: nothing, the text, or the text and a parenthesis. -/
theorem C144_capture_fails (text neg s2 : List UInt8) (s : σ) (m : List UInt8) :
    Message text neg (fun oss t => (oss, t)) (fun _ t => (s2, t)) s m s ↔
      m = text ++ b!" (" ++ neg ++ s2 ++ b!")" ∨ m = text ++ b!" (" ++ text ++ neg ++ s2 ++ b!")" ∨
      m = text ++ b!" (" ++ text ++ b!" (" ++ neg ++ s2 ++ b!")" := by
  rw [C144_evaluation]
  constructor
  · rintro ⟨u1, u2, he, rfl⟩
    have key : ∃ i, i ≤ 2 ∧ Spec.written text neg [] i = u1 ∧ s2 = u2 := by
      cases he with
      | @first i j _ _ _ _ hi _ _ hf hg =>
        simp only [Prod.mk.injEq] at hf hg
        exact ⟨i, hi, hf.1, hg.1⟩
      | @second i j _ _ _ _ _ hi hg hf =>
        simp only [Prod.mk.injEq] at hf hg
        exact ⟨i, hi, hf.1, hg.1⟩
    obtain ⟨i, hi, rfl, rfl⟩ := key
    rcases i with _ | _ | _ | i
    · left; simp [Spec.written]
    · right; left; simp [Spec.written]
    · right; right; simp [Spec.written]
    · omega
  · have mk : ∀ i, i ≤ 2 → Spec.Evaluated text neg (fun oss t => (oss, t)) (fun _ t => (s2, t)) s (Spec.written text neg [] i) s2 s :=
      fun i hi => .first (i := i) (j := i) hi (Nat.le_refl _) (by omega) rfl rfl
    rintro (rfl | rfl | rfl)
    · exact ⟨_, _, mk 0 (by omega), by simp [Spec.written]⟩
    · exact ⟨_, _, mk 1 (by omega), by simp [Spec.written]⟩
    · exact ⟨_, _, mk 2 (by omega), by simp [Spec.written]⟩

/-- C144 fails for operands that share a side effect: `ASSERT_EQ(next(), next())` can show the two numbers in either order. -/
theorem C144_order_fails (text neg : List UInt8) (num : Nat → List UInt8) (s : Nat) (m : List UInt8) :
    Message text neg (fun _ t => (num t, t + 1)) (fun _ t => (num t, t + 1)) s m (s + 2) ↔
      m = text ++ b!" (" ++ num s ++ neg ++ num (s + 1) ++ b!")" ∨ m = text ++ b!" (" ++ num (s + 1) ++ neg ++ num s ++ b!")" := by
  rw [C144_evaluation]
  constructor
  · rintro ⟨u1, u2, he, rfl⟩
    cases he with
    | first _ _ _ hf hg =>
      simp only [Prod.mk.injEq] at hf hg
      obtain ⟨rfl, rfl⟩ := hf
      obtain ⟨rfl, _⟩ := hg
      exact .inl rfl
    | second _ _ hg hf =>
      simp only [Prod.mk.injEq] at hf hg
      obtain ⟨rfl, rfl⟩ := hg
      obtain ⟨rfl, _⟩ := hf
      exact .inr rfl
  · rintro (rfl | rfl)
    · exact ⟨_, _, .first (i := 0) (j := 0) (by omega) (by omega) (by omega) rfl rfl, rfl⟩
    · exact ⟨_, _, .second (i := 0) (j := 0) (by omega) (by omega) rfl rfl, rfl⟩

end Caitlyn
