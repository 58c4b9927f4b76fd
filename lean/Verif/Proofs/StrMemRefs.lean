import Verif.Proofs.StrMem

/-! # When references to characters end, and what is undefined -/

namespace Caitlyn.StrMem
open Spec

/-! ## References after the changes of storage -/

theorem ite_none {α : Type} {p : Prop} [Decidable p] {a : α} : (if p then none else some a) = none ↔ p := by
  split <;> simp_all


theorem Inv.ref_release {st a} (i : Inv st a) (x : Nat) {r y b j : Nat} (hr : st.refs r = some (b, j)) (hy : (st.vars y).blk = some b) :
    (st.release x).refs r = if x = y then none else some (b, j) := by
  unfold State.release
  cases hx : (st.vars x).blk with
  | none =>
    have : x ≠ y := fun c => by subst c; rw [hx] at hy; cases hy
    simp [this, hr]
  | some b' =>
    simp only [hr]
    by_cases c : x = y
    · subst c; rw [hx] at hy; cases hy; simp
    · have : b ≠ b' := fun e => c (i.own x y b' hx (e ▸ hy))
      simp [this, c]

theorem release_none {st : State} (x : Nat) {r : Nat} (hr : st.refs r = none) : (st.release x).refs r = none := by
  unfold State.release
  split
  · exact hr
  · simp only [hr]

theorem Inv.ref_replace {st a} (i : Inv st a) (x : Nat) (s : Str) (cap : Nat) {r y b j : Nat} (hr : st.refs r = some (b, j))
    (hy : (st.vars y).blk = some b) : (st.replace x s cap).refs r = if x = y then none else some (b, j) := i.ref_release x hr hy

theorem Inv.ref_become {st a} (i : Inv st a) (x : Nat) (s : Str) (cap : Nat) {r y b j : Nat} (hr : st.refs r = some (b, j))
    (hy : (st.vars y).blk = some b) : (st.become x s cap).refs r = if x = y then none else some (b, j) := by
  unfold State.become
  split
  · exact i.ref_release x hr hy
  · exact i.ref_release x hr hy

theorem Inv.ref_inPlace {st a} (i : Inv st a) (x : Nat) (s : Str) (keep : Nat) {r y b j : Nat} (hr : st.refs r = some (b, j))
    (hy : (st.vars y).blk = some b) : (st.inPlace x s keep).refs r = if x = y ∧ keep ≤ j then none else some (b, j) := by
  unfold State.inPlace
  cases hx : (st.vars x).blk with
  | none =>
    have : x ≠ y := fun c => by subst c; rw [hx] at hy; cases hy
    simp [this, hr]
  | some b' =>
    simp only [hr]
    by_cases c : x = y
    · subst c; rw [hx] at hy; cases hy; simp
    · have : b ≠ b' := fun e => c (i.own x y b' hx (e ▸ hy))
      simp [this, c]

theorem inPlace_none {st : State} (x : Nat) (s : Str) (keep : Nat) {r : Nat} (hr : st.refs r = none) :
    (st.inPlace x s keep).refs r = none := by
  unfold State.inPlace
  split
  · exact hr
  · simp only [hr]

theorem inPlace_vars (st : State) (x : Nat) (s : Str) (keep : Nat) : (st.inPlace x s keep).vars = st.vars := by
  unfold State.inPlace
  split <;> rfl

theorem inPlace_tries (st : State) (x : Nat) (s : Str) (keep : Nat) : (st.inPlace x s keep).tries = st.tries := by
  unfold State.inPlace
  split <;> rfl

theorem release_vars (st : State) (x : Nat) {y : Nat} (h : y ≠ x) : (st.release x).vars y = st.vars y := by
  unfold State.release
  split
  · rfl
  · simp [h]

theorem replace_vars (st : State) (x : Nat) (s : Str) (cap : Nat) {y : Nat} (h : y ≠ x) :
    (st.replace x s cap).vars y = st.vars y := by
  simp only [State.replace, h, if_false]
  exact release_vars st x h

theorem inPlace_elems {st a} (i : Inv st a) (x : Nat) (s : Str) (keep : Nat) (h : s.length ≤ (st.vars x).cap) (hk : keep ≤ s.length) :
    (st.inPlace x s keep).elems x = s := by
  have := (i.inPlace x s keep h hk).texts x
  simpa using this

theorem Inv.ref_lt {st a} (i : Inv st a) {r y b j : Nat} (hr : st.refs r = some (b, j)) (hy : (st.vars y).blk = some b) :
    j < (st.elems y).length := by
  obtain ⟨h1, h2, h3⟩ := i.refs r _ hr
  have := i.own _ _ _ h1 hy
  rw [this] at h3
  rw [i.texts]
  exact h3

section
variable {P : Policy} {fails : Nat → Bool}

/-- The ways of adding one character. -/
theorem push_cases {st a} (i : Inv st a) (x : Nat) (c : Chr) :
    (0 < roomOf st x ∧ push P fails st x c = (true, st.inPlace x (st.elems x ++ [c]) (st.elems x).length)) ∨
    (roomOf st x = 0 ∧ fails st.tries = true ∧ push P fails st x c = (false, { st with tries := st.tries + 1 })) ∨
    (roomOf st x = 0 ∧ fails st.tries = false ∧ push P fails st x c =
      (true, { st with tries := st.tries + 1 }.replace x (st.elems x ++ [c]) (P.one (st.vars x).cap))) := by
  have := i.room x
  unfold push roomOf
  simp only
  split
  · exact .inl ⟨by omega, rfl⟩
  · cases h : fails st.tries with
    | true => exact .inr (.inl ⟨by omega, rfl, rfl⟩)
    | false => exact .inr (.inr ⟨by omega, rfl, rfl⟩)

theorem room_inPlace {st a} (i : Inv st a) (x : Nat) (c : Chr) (h : 0 < roomOf st x) :
    roomOf (st.inPlace x (st.elems x ++ [c]) (st.elems x).length) x + 1 = roomOf st x := by
  unfold roomOf at h ⊢
  rw [inPlace_vars, inPlace_elems i _ _ _ (by simp; omega) (by simp)]
  simp
  omega

theorem push_none {st : State} (x : Nat) (c : Chr) {r : Nat} (hr : st.refs r = none) : (push P fails st x c).2.refs r = none := by
  unfold push
  simp only
  split
  · exact inPlace_none x _ _ hr
  · split
    · exact hr
    · exact release_none (st := { st with tries := st.tries + 1 }) x hr

theorem appendLoop_none {x : Nat} {cs : Str} : ∀ {st : State} {r : Nat}, st.refs r = none → (appendLoop P fails x cs st).2.refs r = none := by
  induction cs with
  | nil => intro st r hr; exact hr
  | cons c cs ih =>
    intro st r hr
    have := push_none (P := P) (fails := fails) x c hr
    simp only [appendLoop]
    split
    · rename_i e; rw [e] at this; exact ih this
    · rename_i e; rw [e] at this; exact this

theorem countLoop_none {x : Nat} {c : Arg} {n : Nat} : ∀ {st : State} {r : Nat} {ok st'}, st.refs r = none →
    countLoop P fails x c n st = .ok (ok, st') → st'.refs r = none := by
  induction n with
  | zero => intro st r ok st' hr h; cases h; exact hr
  | succ n ih =>
    intro st r ok st' hr h
    simp only [countLoop, bind, Except.bind] at h
    cases hc : Arg.read st c with
    | error e => rw [hc] at h; cases h
    | ok ch =>
      rw [hc] at h
      simp only at h
      have := push_none (P := P) (fails := fails) x ch hr
      split at h
      · rename_i e; rw [e] at this; exact ih this h
      · rename_i e; rw [e] at this; cases h; exact this

/-- A reference after one character was added. -/
theorem push_ref {st a} (i : Inv st a) (x : Nat) (c : Chr) {r y b j : Nat} (hr : st.refs r = some (b, j)) (hy : (st.vars y).blk = some b)
    {ok : Bool} {st' : State} (h : push P fails st x c = (ok, st')) :
    st'.refs r = if ok = true ∧ x = y ∧ roomOf st x = 0 then none else some (b, j) := by
  rcases push_cases (P := P) (fails := fails) i x c with ⟨h1, e⟩ | ⟨h1, h2, e⟩ | ⟨h1, h2, e⟩
  · rw [e] at h
    cases h
    rw [i.ref_inPlace x _ _ hr hy, if_neg, if_neg]
    · rintro ⟨_, _, c⟩; omega
    · rintro ⟨rfl, c⟩
      have := i.ref_lt hr hy
      omega
  · rw [e] at h; cases h; simp [hr]
  · rw [e] at h
    cases h
    rw [(i.tried (st.tries + 1)).ref_replace x _ _ hr hy]
    simp [h1]

/-- The storage of the variable referred to is as before, if the reference is valid still. -/
theorem push_vars {st a} (i : Inv st a) (x : Nat) (c : Chr) {y b : Nat} (hy : (st.vars y).blk = some b)
    {st' : State} (h : push P fails st x c = (true, st')) (k : ¬ (x = y ∧ roomOf st x = 0)) : (st'.vars y).blk = some b := by
  rcases push_cases (P := P) (fails := fails) i x c with ⟨h1, e⟩ | ⟨h1, h2, e⟩ | ⟨h1, h2, e⟩
  · rw [e] at h; cases h; rw [inPlace_vars]; exact hy
  · rw [e] at h; cases h
  · rw [e] at h
    cases h
    rw [replace_vars _ _ _ _ (fun c => k ⟨c.symm, h1⟩)]
    exact hy

/-- What adding a character leaves for the next one. -/
theorem push_next {st a} (i : Inv st a) (x : Nat) (c : Chr) {r y b j : Nat} (hr : st.refs r = some (b, j)) (hy : (st.vars y).blk = some b)
    {st' : State} (h : push P fails st x c = (true, st')) :
    (st'.refs r = some (b, j) ∧ (st'.vars y).blk = some b ∧ 0 < roomOf st x ∧ roomOf st' x + 1 = roomOf st x ∧ st'.tries = st.tries) ∨
    (st'.refs r = some (b, j) ∧ (st'.vars y).blk = some b ∧ x ≠ y ∧ (st'.vars x).blk ≠ some b ∧ roomOf st x = 0) ∨
    (st'.refs r = none ∧ x = y ∧ roomOf st x = 0 ∧ fails st.tries = false) := by
  have r1 := push_ref i x c hr hy h
  have i1 := i.push x c h
  by_cases k : x = y ∧ roomOf st x = 0
  · rw [if_pos ⟨rfl, k⟩] at r1
    refine .inr (.inr ⟨r1, k.1, k.2, ?_⟩)
    rcases push_cases (P := P) (fails := fails) i x c with ⟨h1, e⟩ | ⟨h1, h2, e⟩ | ⟨h1, h2, e⟩
    · omega
    · rw [e] at h; cases h
    · exact h2
  · rw [if_neg (fun c => k c.2)] at r1
    have v1 := push_vars i x c hy h k
    rcases push_cases (P := P) (fails := fails) i x c with ⟨h1, e⟩ | ⟨h1, h2, e⟩ | ⟨h1, h2, e⟩
    · rw [e] at h
      cases h
      exact .inl ⟨r1, v1, h1, room_inPlace i x c h1, inPlace_tries _ _ _ _⟩
    · rw [e] at h; cases h
    · have ne : x ≠ y := fun c => k ⟨c, h1⟩
      exact .inr (.inl ⟨r1, v1, ne, fun c => ne (i1.own _ _ _ c v1), h1⟩)

theorem push_fails {st a} (i : Inv st a) (x : Nat) (c : Chr) {st' : State} (h : push P fails st x c = (false, st')) :
    st'.refs = st.refs ∧ roomOf st x = 0 ∧ fails st.tries = true := by
  rcases push_cases (P := P) (fails := fails) i x c with ⟨h1, e⟩ | ⟨h1, h2, e⟩ | ⟨h1, h2, e⟩
  · rw [e] at h; cases h
  · rw [e] at h; cases h; exact ⟨rfl, h1, h2⟩
  · rw [e] at h; cases h

theorem appendLoop_ref {x : Nat} {cs : Str} : ∀ {st a}, Inv st a → ∀ {r y b j : Nat}, st.refs r = some (b, j) → (st.vars y).blk = some b →
    ∀ {ok st'}, appendLoop P fails x cs st = (ok, st') →
    st'.refs r = if fails st.tries = false ∧ x = y ∧ roomOf st x < cs.length then none else some (b, j) := by
  induction cs with
  | nil => intro st a i r y b j hr hy ok st' h; cases h; simp [hr]
  | cons c cs ih =>
    intro st a i r y b j hr hy ok st' h
    simp only [appendLoop] at h
    cases hp : push P fails st x c with
    | mk ok1 st1 =>
      rw [hp] at h
      have i1 := i.push x c hp
      cases ok1 with
      | false =>
        cases h
        obtain ⟨h1, _, h3⟩ := push_fails i x c hp
        rw [h1]; simp [h3, hr]
      | true =>
        simp only at h
        rcases push_next i x c hr hy hp with ⟨r1, v1, h1, h2, h3⟩ | ⟨r1, v1, ne, _⟩ | ⟨r1, rfl, h1, h2⟩
        · rw [ih i1 r1 v1 h, h3]
          simp only [List.length_cons]
          congr 1
          exact propext ⟨fun ⟨u, v, w⟩ => ⟨u, v, by omega⟩, fun ⟨u, v, w⟩ => ⟨u, v, by omega⟩⟩
        · rw [ih i1 r1 v1 h]; simp [ne]
        · have n1 := appendLoop_none (P := P) (fails := fails) (x := x) (cs := cs) r1
          rw [h] at n1
          simpa only [h1, h2, true_and, List.length_cons, Nat.succ_pos, if_true] using n1

theorem countLoop_ref {x : Nat} {c : Arg} {n : Nat} : ∀ {st a}, Inv st a → ∀ {r y b j : Nat}, st.refs r = some (b, j) →
    (st.vars y).blk = some b → ∀ {ok st'}, countLoop P fails x c n st = .ok (ok, st') →
    st'.refs r = if fails st.tries = false ∧ x = y ∧ roomOf st x < n then none else some (b, j) := by
  induction n with
  | zero => intro st a i r y b j hr hy ok st' h; cases h; simp [hr]
  | succ n ih =>
    intro st a i r y b j hr hy ok st' h
    simp only [countLoop, bind, Except.bind] at h
    cases hc : Arg.read st c with
    | error e => rw [hc] at h; cases h
    | ok ch =>
      rw [hc] at h
      simp only at h
      cases hp : push P fails st x ch with
      | mk ok1 st1 =>
        rw [hp] at h
        have i1 := i.push x ch hp
        cases ok1 with
        | false =>
          cases h
          obtain ⟨h1, _, h3⟩ := push_fails i x ch hp
          rw [h1]; simp [h3, hr]
        | true =>
          simp only at h
          rcases push_next i x ch hr hy hp with ⟨r1, v1, h1, h2, h3⟩ | ⟨r1, v1, ne, _⟩ | ⟨r1, rfl, h1, h2⟩
          · rw [ih i1 r1 v1 h, h3]
            congr 1
            exact propext ⟨fun ⟨u, v, w⟩ => ⟨u, v, by omega⟩, fun ⟨u, v, w⟩ => ⟨u, v, by omega⟩⟩
          · rw [ih i1 r1 v1 h]; simp [ne]
          · rw [countLoop_none r1 h]; simp [h1, h2]

/-! ## What is undefined -/

theorem Inv.read_error {st a} (i : Inv st a) (c : Arg) {e : Err} : Arg.read st c = .error e ↔ e = .ub ∧ Dangling st c := by
  cases c with
  | value c => simp [Arg.read, Dangling]
  | ref r =>
    simp only [Arg.read, Dangling]
    cases hr : st.refs r with
    | none => simp [eq_comm]
    | some p =>
      obtain ⟨b, j⟩ := p
      obtain ⟨h1, h2, h3⟩ := i.refs r _ hr
      simp only at h1 h2 h3
      rw [← i.texts] at h3
      simp only [i.heap_some h1]
      simp [vecGet, List.getElem?_eq_getElem h3]

theorem countLoop_error {x : Nat} {c : Arg} {n : Nat} : ∀ {st a}, Inv st a → ∀ {e : Err}, countLoop P fails x c n st = .error e ↔
    e = .ub ∧ 0 < n ∧ (Dangling st c ∨ ∃ r j, c = .ref r ∧ RefersTo st r x j ∧ roomOf st x + 2 ≤ n ∧ fails st.tries = false) := by
  induction n with
  | zero => intro st a i e; simp [countLoop]
  | succ n ih =>
    intro st a i e
    simp only [countLoop, bind, Except.bind]
    cases hc : Arg.read st c with
    | error e' =>
      obtain ⟨rfl, hd⟩ := (i.read_error c).mp hc
      simp only [Except.error.injEq, hd, true_or, and_true, Nat.succ_pos]
      exact eq_comm
    | ok ch =>
      have nd : ¬ Dangling st c := fun d => by rw [(i.read_error c).mpr ⟨rfl, d⟩] at hc; cases hc
      simp only [nd, false_or]
      cases hp : push P fails st x ch with
      | mk ok1 st1 =>
        have i1 := i.push x ch hp
        cases ok1 with
        | false =>
          obtain ⟨_, _, h3⟩ := push_fails i x ch hp
          simp [h3]
        | true =>
          simp only
          rw [ih i1]
          cases c with
          | value c => simp [Dangling]
          | ref r =>
            simp only [Dangling, Arg.ref.injEq, Nat.succ_pos, true_and]
            simp only [Dangling] at nd
            cases hr : st.refs r with
            | none => exact absurd hr nd
            | some p =>
              obtain ⟨b, j⟩ := p
              obtain ⟨hy, _, _⟩ := i.refs r _ hr
              simp only at hy
              generalize (a.place r).1 = y at hy
              have to : ∀ j', RefersTo st r x j' ↔ j' = j ∧ x = y := by
                intro j'
                constructor
                · rintro ⟨b', h1, h2⟩
                  rw [hr] at h1
                  cases h1
                  exact ⟨rfl, i.own _ _ _ h2 hy⟩
                · rintro ⟨rfl, rfl⟩
                  exact ⟨b, hr, hy⟩
              rcases push_next i x ch hr hy hp with ⟨r1, v1, h1, h2, h3⟩ | ⟨r1, v1, ne, nb, h1⟩ | ⟨r1, rfl, h1, h2⟩
              · have to1 : ∀ j', RefersTo st1 r x j' ↔ j' = j ∧ x = y := by
                  intro j'
                  constructor
                  · rintro ⟨b', g1, g2⟩
                    rw [r1] at g1
                    cases g1
                    exact ⟨rfl, i1.own _ _ _ g2 v1⟩
                  · rintro ⟨rfl, rfl⟩
                    exact ⟨b, r1, v1⟩
                rw [r1]
                simp only [reduceCtorEq, false_or]
                constructor
                · rintro ⟨he, hn, q, j', rfl, ht, hl, hf⟩
                  exact ⟨he, r, j', rfl, (to j').mpr ((to1 j').mp ht), by omega, by rw [← h3]; exact hf⟩
                · rintro ⟨he, q, j', rfl, ht, hl, hf⟩
                  exact ⟨he, by omega, r, j', rfl, (to1 j').mpr ((to j').mp ht), by omega, by rw [h3]; exact hf⟩
              · rw [r1]
                simp only [reduceCtorEq, false_or]
                constructor
                · rintro ⟨he, hn, q, j', rfl, ⟨b', g1, g2⟩, _⟩
                  rw [r1] at g1
                  cases g1
                  exact absurd g2 nb
                · rintro ⟨he, q, j', rfl, ht, _⟩
                  exact absurd ((to j').mp ht).2 ne
              · rw [r1]
                simp only [true_or, and_true]
                constructor
                · rintro ⟨he, hn⟩
                  exact ⟨he, r, j, rfl, (to j).mpr ⟨rfl, rfl⟩, by omega, h2⟩
                · rintro ⟨he, q, j', rfl, ht, hl, _⟩
                  exact ⟨he, by omega⟩

theorem finish_error {q : Bool × State} {e : Err} : finish q ≠ .error e := by
  obtain ⟨ok, s⟩ := q
  cases ok <;> simp [finish]

/-- What is undefined. -/
theorem Inv.step_error {st a} (i : Inv st a) {s : StrMem.Stmt} {e : Err} :
    StrMem.step P fails st s = .error e ↔ e = .ub ∧ UndefinedIn fails st s := by
  cases s with
  | literal x cs => simp only [StrMem.step, UndefinedIn]; split <;> simp
  | plus x y z => simp only [StrMem.step, UndefinedIn]; split <;> simp
  | substring x y pos count => simp only [StrMem.step, UndefinedIn]; (repeat' split) <;> simp
  | copy x y => simp only [StrMem.step, UndefinedIn]; (repeat' split) <;> simp
  | move x y => simp only [StrMem.step, UndefinedIn]; split <;> simp
  | clear x => simp [StrMem.step, UndefinedIn]
  | push x c =>
    simp only [StrMem.step, UndefinedIn, Bind.bind, Except.bind]
    rw [← i.read_error]
    cases Arg.read st c with
    | error e' => simp
    | ok ch => simp [finish_error]
  | append x cs => simp [StrMem.step, UndefinedIn, finish_error]
  | appendCount x n c =>
    simp only [StrMem.step, UndefinedIn, Bind.bind, Except.bind]
    rw [← countLoop_error (P := P) i]
    cases StrMem.countLoop P fails x c n st with
    | error e' => simp
    | ok ch => simp [finish_error]
  | plusAssign x y =>
    simp only [StrMem.step, UndefinedIn]
    split
    · simp_all [eq_comm]
    · simp_all [finish_error]
  | insert x pos y =>
    simp only [StrMem.step, UndefinedIn]
    split
    · simp; omega
    · split
      · rename_i h1 h2
        simp only [Except.error.injEq, h2, true_and]
        constructor
        · rintro rfl; exact ⟨rfl, by rw [← h2]; omega⟩
        · rintro ⟨rfl, _⟩; rfl
      · simp_all [finish_error]
  | insertLit x pos cs =>
    simp only [StrMem.step, UndefinedIn]
    split
    · simp
    · split
      · simp [finish_error]
      · simp
  | insertCount x pos n c =>
    simp only [StrMem.step, UndefinedIn]
    split
    · simp; omega
    · rename_i h
      simp only [Nat.not_lt.mp h, true_and, Bind.bind, Except.bind]
      rw [← i.read_error]
      cases Arg.read st c with
      | error e' => simp
      | ok ch => simp [finish_error]
  | at' r x j => simp only [StrMem.step, UndefinedIn]; (repeat' split) <;> simp
  | index r x j =>
    simp only [StrMem.step, UndefinedIn]
    cases hb : (st.vars x).blk with
    | none => rw [elems_none hb]; simp [eq_comm]
    | some b =>
      simp only
      split
      · simp; omega
      · simp [eq_comm]; omega
  | set r c =>
    have := i.read_error (.ref r) (e := e)
    simp only [StrMem.step, UndefinedIn]
    cases hr : st.refs r with
    | none => simp [eq_comm]
    | some p =>
      obtain ⟨b, j⟩ := p
      simp only
      rw [i.heap_some (i.refs r _ hr).1]
      simp
  | get r =>
    simp only [StrMem.step, UndefinedIn, Bind.bind, Except.bind]
    have := i.read_error (.ref r) (e := e)
    simp only [Dangling] at this
    rw [← this]
    cases Arg.read st (.ref r) with
    | error e' => simp
    | ok ch => simp [pure, Except.pure]
  | read x => simp [StrMem.step, UndefinedIn]

/-! ## When references end -/

theorem insertAt_ref {st a} (i : Inv st a) (x pos : Nat) (cs : Str) {r y b j : Nat} (hr : st.refs r = some (b, j))
    (hy : (st.vars y).blk = some b) {o : Out} {st' : State} (h : finish (insertAt P fails st x pos cs) = .ok (o, st')) :
    st'.refs r = none ↔ o = .done ∧ x = y ∧ EndsAt st y pos cs.length j := by
  have room := i.room x
  unfold insertAt at h
  simp only at h
  split at h
  · cases h; simp_all [EndsAt]
  · rename_i ne
    have hl : 0 < cs.length := List.length_pos_iff.mpr ne
    split at h
    · cases h
      rw [i.ref_inPlace x _ _ hr hy]
      constructor
      · intro k
        split at k
        · rename_i k'; exact ⟨rfl, k'.1, hl, .inr k'.2⟩
        · cases k
      · rintro ⟨_, rfl, _, k⟩
        rw [if_pos]
        refine ⟨rfl, ?_⟩
        rcases k with k | k
        · unfold roomOf at k; omega
        · exact k
    · split at h
      · cases h; simp [hr]
      · cases h
        rw [(i.tried (st.tries + 1)).ref_replace x _ _ hr hy]
        by_cases c : x = y
        · subst c
          simp only [if_true, true_and, true_iff]
          exact ⟨hl, .inl (by unfold roomOf; omega)⟩
        · simp [c]

theorem room_eq {st st' : State} (h1 : st'.vars = st.vars) (h2 : st'.heap = st.heap) (x : Nat) : roomOf st' x = roomOf st x := by
  simp [roomOf, State.elems, h1, h2]

theorem twice_same {n : Nat} {st st' : State} {ok : Bool} (h : twice fails n st = (ok, st')) : st'.refs = st.refs ∧ st'.vars = st.vars := by
  unfold twice at h
  split at h
  · cases h; exact ⟨rfl, rfl⟩
  · split at h
    · cases h; exact ⟨rfl, rfl⟩
    · split at h <;> (cases h; exact ⟨rfl, rfl⟩)

/-- When a statement ends a reference. -/
theorem Inv.step_ref {st a} (i : Inv st a) {s : StrMem.Stmt} {o : Out} {st' : State} (h : StrMem.step P fails st s = .ok (o, st'))
    {r y b j : Nat} (hr : st.refs r = some (b, j)) (hy : (st.vars y).blk = some b) (nb : ¬ Binds r s) :
    st'.refs r = none ↔ Ends fails st y j o s := by
  cases s with
  | literal x cs =>
    simp only [StrMem.step] at h
    split at h
    · rename_i t _
      cases h
      rw [(i.tried t).ref_become x _ _ hr hy]
      simp [Ends]
    · cases h; simp [hr, Ends]
  | plus x u z =>
    simp only [StrMem.step] at h
    split at h
    · rename_i st1 e
      cases h
      have : Inv st1 a ∧ st1.refs = st.refs ∧ st1.vars = st.vars := ⟨i.twice _ e, twice_same e⟩
      rw [this.1.ref_become x _ _ (by rw [this.2.1]; exact hr) (by rw [this.2.2]; exact hy)]
      simp [Ends]
    · rename_i st1 e
      cases h
      have := (twice_same e).1
      simp [this, hr, Ends]
  | substring x u pos count =>
    simp only [StrMem.step] at h
    split at h
    · cases h; simp [hr, Ends]
    split at h
    · rename_i st1 e
      cases h
      have : Inv st1 a ∧ st1.refs = st.refs ∧ st1.vars = st.vars := ⟨i.twice _ e, twice_same e⟩
      rw [this.1.ref_become x _ _ (by rw [this.2.1]; exact hr) (by rw [this.2.2]; exact hy)]
      simp [Ends]
    · rename_i st1 e
      cases h
      have := (twice_same e).1
      simp [this, hr, Ends]
  | copy x z =>
    simp only [StrMem.step] at h
    split at h
    · cases h; subst_vars; simp [hr, Ends]
    · rename_i ne
      split at h
      · cases h
        rw [i.ref_inPlace x _ _ hr hy]
        simp only [Ends, Nat.zero_le, and_true, ite_none, true_and]
        constructor
        · rintro rfl; exact ⟨rfl, Ne.symm ne⟩
        · rintro ⟨rfl, _⟩; rfl
      · split at h
        · cases h; simp [hr, Ends]
        · cases h
          rw [(i.tried (st.tries + 1)).ref_replace x _ _ hr hy]
          simp only [Ends, ite_none, true_and]
          constructor
          · rintro rfl; exact ⟨rfl, Ne.symm ne⟩
          · rintro ⟨rfl, _⟩; rfl
  | move x z =>
    simp only [StrMem.step] at h
    split at h
    · cases h; subst_vars; simp [hr, Ends]
    · rename_i ne
      cases h
      simp only
      rw [i.ref_release x hr hy]
      simp only [Ends, ite_none, true_and]
      constructor
      · rintro rfl; exact ⟨rfl, Ne.symm ne⟩
      · rintro ⟨rfl, _⟩; rfl
  | clear x =>
    cases h
    rw [i.ref_inPlace x _ _ hr hy]
    simp [Ends]
  | push x c =>
    simp only [StrMem.step, Bind.bind, Except.bind] at h
    cases hc : Arg.read st c with
    | error e => rw [hc] at h; cases h
    | ok ch =>
      rw [hc] at h
      simp only at h
      rcases finish_ok h with ⟨hi, rfl⟩ | ⟨hi, rfl⟩
      · rw [push_ref i x ch hr hy hi]
        simp only [Ends, true_and, ite_none]
        constructor
        · rintro ⟨rfl, k⟩; exact ⟨rfl, k⟩
        · rintro ⟨rfl, k⟩; exact ⟨rfl, k⟩
      · rw [push_ref i x ch hr hy hi]; simp [Ends]
  | append x cs =>
    simp only [StrMem.step] at h
    have : ∃ ok, StrMem.appendLoop P fails x cs st = (ok, st') := by
      rcases finish_ok h with ⟨hi, _⟩ | ⟨hi, _⟩
      · exact ⟨_, hi⟩
      · exact ⟨_, hi⟩
    obtain ⟨ok, h⟩ := this
    rw [appendLoop_ref i hr hy h]
    simp only [Ends, ite_none]
    constructor
    · rintro ⟨k, rfl, l⟩; exact ⟨k, rfl, l⟩
    · rintro ⟨k, rfl, l⟩; exact ⟨k, rfl, l⟩
  | appendCount x n c =>
    simp only [StrMem.step, Bind.bind, Except.bind] at h
    cases hc : StrMem.countLoop P fails x c n st with
    | error e => rw [hc] at h; cases h
    | ok q =>
      rw [hc] at h
      simp only at h
      have : ∃ ok, q = (ok, st') := by
        rcases finish_ok h with ⟨hi, _⟩ | ⟨hi, _⟩
        · exact ⟨_, hi⟩
        · exact ⟨_, hi⟩
      obtain ⟨ok, rfl⟩ := this
      rw [countLoop_ref i hr hy hc]
      simp only [Ends, ite_none]
      constructor
      · rintro ⟨k, rfl, l⟩; exact ⟨k, rfl, l⟩
      · rintro ⟨k, rfl, l⟩; exact ⟨k, rfl, l⟩
  | plusAssign x z =>
    simp only [StrMem.step] at h
    split at h
    · cases h
    · rw [insertAt_ref i _ _ _ hr hy h]
      simp only [Ends]
      constructor
      · rintro ⟨k, rfl, _, l⟩
        refine ⟨k, rfl, ?_⟩
        have := i.ref_lt hr hy
        omega
      · rintro ⟨k, rfl, l⟩
        exact ⟨k, rfl, by omega, .inl l⟩
  | insert x pos z =>
    simp only [StrMem.step] at h
    split at h
    · cases h; simp [hr, Ends]
    · split at h
      · cases h
      · exact insertAt_ref i _ _ _ hr hy h
  | insertLit x pos cs =>
    simp only [StrMem.step] at h
    split at h
    · cases h; simp [hr, Ends]
    · split at h
      · rename_i t _
        have := insertAt_ref (i.tried t) _ _ _ hr hy h
        simpa [Ends, EndsAt, roomOf, State.elems] using this
      · cases h; simp [hr, Ends]
  | insertCount x pos n c =>
    simp only [StrMem.step] at h
    split at h
    · cases h; simp [hr, Ends]
    · simp only [Bind.bind, Except.bind] at h
      cases hc : Arg.read st c with
      | error e => rw [hc] at h; cases h
      | ok ch =>
        rw [hc] at h
        simp only at h
        have := insertAt_ref i _ _ _ hr hy h
        simpa [Ends] using this
  | at' q x k =>
    simp only [StrMem.step] at h
    simp only [Binds] at nb
    split at h
    · split at h
      · cases h; simp [Ends, Ne.symm nb, hr]
      · cases h; simp [Ends, hr]
    · cases h; simp [Ends, hr]
  | index q x k =>
    simp only [StrMem.step] at h
    simp only [Binds] at nb
    split at h
    · split at h
      · cases h; simp [Ends, Ne.symm nb, hr]
      · cases h
    · cases h
  | set q c =>
    simp only [StrMem.step] at h
    split at h
    · cases h
    · split at h
      · cases h
      · cases h; simp [Ends, hr]
  | get q =>
    simp only [StrMem.step, Bind.bind, Except.bind] at h
    split at h
    · cases h
    · cases h; simp [Ends, hr]
  | read x => cases h; simp [Ends, hr]

/-! ## Enough memory -/

theorem push_enough {st : State} (x : Nat) (c : Chr) : (push P (fun _ => false) st x c).1 = true := by
  unfold push
  simp only
  split <;> simp

theorem appendLoop_enough {x : Nat} {cs : Str} : ∀ {st : State}, (appendLoop P (fun _ => false) x cs st).1 = true := by
  induction cs with
  | nil => intro st; rfl
  | cons c cs ih =>
    intro st
    have := push_enough (P := P) (st := st) x c
    simp only [appendLoop]
    split
    · exact ih
    · simp_all

theorem countLoop_enough {x : Nat} {c : Arg} {n : Nat} : ∀ {st : State} {ok st'}, countLoop P (fun _ => false) x c n st = .ok (ok, st') →
    ok = true := by
  induction n with
  | zero => intro st ok st' h; cases h; rfl
  | succ n ih =>
    intro st ok st' h
    simp only [countLoop, bind, Except.bind] at h
    split at h
    · cases h
    · rename_i ch _
      have := push_enough (P := P) (st := st) x ch
      split at h
      · exact ih h
      · simp_all

theorem insertAt_enough {st : State} {x pos : Nat} {cs : Str} {o st'} (h : finish (insertAt P (fun _ => false) st x pos cs) = .ok (o, st')) :
    o ≠ .noMemory := by
  unfold insertAt at h
  simp only at h
  split at h
  · cases h; simp
  · split at h
    · cases h; simp
    · split at h
      · rename_i h'; cases h'
      · cases h; simp

theorem build_enough (cs : Str) : ∀ (cap len t : Nat), (build P (fun _ => false) cs cap len t).1 ≠ none := by
  induction cs with
  | nil => intro cap len t; simp [build]
  | cons c cs ih =>
    intro cap len t
    simp only [build]
    split
    · exact ih _ _ _
    · simpa using ih _ _ _

theorem twice_enough (n : Nat) (st : State) : (twice (fun _ => false) n st).1 = true := by
  unfold twice
  split <;> simp

/-- With enough memory no statement runs out of it. -/
theorem step_enough {st : State} {s : StrMem.Stmt} {o st'} (h : step P (fun _ => false) st s = .ok (o, st')) : o ≠ .noMemory := by
  have fin : ∀ {q : Bool × State} {o st'}, q.1 = true → finish q = .ok (o, st') → o ≠ .noMemory := by
    intro q o st' hq h
    rcases finish_ok h with ⟨_, rfl⟩ | ⟨rfl, _⟩
    · simp
    · cases hq
  cases s with
  | literal x cs =>
    have := build_enough (P := P) cs 0 0 st.tries
    simp only [step] at h
    split at h
    · cases h; simp
    · simp_all
  | plus x y z =>
    have := twice_enough (st.elems y ++ st.elems z).length st
    simp only [step] at h
    split at h
    · cases h; simp
    · rename_i e; rw [e] at this; cases this
  | substring x y pos count =>
    have := twice_enough (((st.elems y).drop pos).take count).length st
    simp only [step] at h
    split at h
    · cases h; simp
    · split at h
      · cases h; simp
      · rename_i e; rw [e] at this; cases this
  | copy x y =>
    simp only [step] at h
    split at h
    · cases h; simp
    · split at h
      · cases h; simp
      · split at h
        · rename_i h'; cases h'
        · cases h; simp
  | move x y => simp only [step] at h; split at h <;> (cases h; simp)
  | clear x => cases h; simp
  | push x c =>
    simp only [step, bind, Except.bind] at h
    split at h
    · cases h
    · exact fin (push_enough _ _) h
  | append x cs => exact fin appendLoop_enough h
  | appendCount x n c =>
    simp only [step, bind, Except.bind] at h
    split at h
    · cases h
    · rename_i q hq
      exact fin (countLoop_enough (ok := q.1) (st' := q.2) hq) h
  | plusAssign x y =>
    simp only [step] at h
    split at h
    · cases h
    · exact insertAt_enough h
  | insert x pos y =>
    simp only [step] at h
    split at h
    · cases h; simp
    · split at h
      · cases h
      · exact insertAt_enough h
  | insertLit x pos cs =>
    have := build_enough (P := P) cs 0 0 st.tries
    simp only [step] at h
    split at h
    · cases h; simp
    · split at h
      · exact insertAt_enough h
      · simp_all
  | insertCount x pos n c =>
    simp only [step] at h
    split at h
    · cases h; simp
    · simp only [bind, Except.bind] at h
      split at h
      · cases h
      · exact insertAt_enough h
  | at' r x i =>
    simp only [step] at h
    split at h
    · split at h <;> (cases h; simp)
    · cases h; simp
  | index r x i =>
    simp only [step] at h
    split at h
    · split at h
      · cases h; simp
      · cases h
    · cases h
  | set r c =>
    simp only [step] at h
    split at h
    · cases h
    · split at h
      · cases h
      · cases h; simp
  | get r =>
    simp only [step, bind, Except.bind] at h
    split at h
    · cases h
    · cases h; simp
  | read x => cases h; simp

theorem Inv.run_enough {st a} {p : List StrMem.Stmt} (i : Inv st a) {os : List Out} {st' : State}
    (h : StrMem.run P (fun _ => false) st p = .ok (os, st')) : os = (textsOf a p).1 ∧ Inv st' (textsOf a p).2 := by
  induction p generalizing st a os with
  | nil => cases h; exact ⟨rfl, i⟩
  | cons s p ih =>
    simp only [StrMem.run, Bind.bind, Except.bind] at h
    cases hs : StrMem.step P (fun _ => false) st s with
    | error e => rw [hs] at h; cases h
    | ok q =>
      obtain ⟨o, st1⟩ := q
      rw [hs] at h
      simp only at h
      obtain ⟨b, hb, ib⟩ := i.step hs
      rcases hb with hb | ⟨hb, _⟩
      · cases hr : StrMem.run P (fun _ => false) st1 p with
        | error e => rw [hr] at h; cases h
        | ok q =>
          obtain ⟨os', st2⟩ := q
          rw [hr] at h
          cases h
          have e1 : o = (textMeaning a s).1 := congrArg Prod.fst hb
          have e2 : b = (textMeaning a s).2 := congrArg Prod.snd hb
          subst e1 e2
          obtain ⟨h1, h2⟩ := ih ib hr
          exact ⟨by simp [textsOf, h1], h2⟩
      · exact absurd hb (step_enough hs)

/-- Characters are appended up to the room. -/
theorem appendLoop_room {x : Nat} {cs : Str} : ∀ {st a}, Inv st a → fails st.tries = true → roomOf st x < cs.length →
    ∃ st', appendLoop P fails x cs st = (false, st') ∧ st'.elems x = st.elems x ++ cs.take (roomOf st x) := by
  induction cs with
  | nil => intro st a i hf h; simp at h
  | cons c cs ih =>
    intro st a i hf h
    rcases push_cases (P := P) (fails := fails) i x c with ⟨h1, e⟩ | ⟨h1, h2, e⟩ | ⟨h1, h2, e⟩
    · have i1 := i.push x c e
      have hr := room_inPlace i x c h1
      obtain ⟨st', g1, g2⟩ := ih i1 (by rw [inPlace_tries]; exact hf) (by simp at h; omega)
      refine ⟨st', by simp only [appendLoop, e]; exact g1, ?_⟩
      unfold roomOf at h1
      rw [g2, inPlace_elems i _ _ _ (by simp; omega) (by simp), ← hr]
      simp
    · exact ⟨_, by simp only [appendLoop, e]; rfl, by simp [h1, State.elems]⟩
    · rw [hf] at h2; cases h2

end
end Caitlyn.StrMem
