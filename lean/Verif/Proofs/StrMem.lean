import Verif.Spec.StrMem

/-! # Programs with strings in memory keep texts and positions -/

namespace Caitlyn.StrMem
open Spec

theorem elems_some {st : State} {x b : Nat} (h : (st.vars x).blk = some b) : st.elems x = (st.heap b).getD [] := by
  simp [State.elems, h]

theorem elems_none {st : State} {x : Nat} (h : (st.vars x).blk = none) : st.elems x = [] := by simp [State.elems, h]

/-- The memory is in order, holds the texts, and the storage from `next` on is not in use. -/
structure Inv (st : State) (a : Texts) : Prop extends Ordered st where
  texts : ∀ x, st.elems x = a.text x
  refs : ∀ r p, st.refs r = some p → (st.vars (a.place r).1).blk = some p.1 ∧ p.2 = (a.place r).2 ∧ p.2 < (a.text (a.place r).1).length
  fresh : ∀ b, st.next ≤ b → st.heap b = Option.none

theorem Inv.holds {st a} (i : Inv st a) : HoldsTexts st a := ⟨i.texts, i.refs⟩

theorem Inv.start : Inv {} {} where
  owned b := by simp
  own x y b h := by simp at h
  room x := by simp [State.elems]
  none x := by simp
  texts x := by simp [State.elems]
  refs r p h := by simp at h
  fresh b _ := rfl

theorem Inv.congr {st a b} (i : Inv st a) (h1 : ∀ x, a.text x = b.text x) (h2 : a.place = b.place) : Inv st b where
  owned := i.owned
  own := i.own
  room := i.room
  none := i.none
  texts x := by rw [← h1]; exact i.texts x
  refs r p h := by rw [← h2, ← h1]; exact i.refs r p h
  fresh := i.fresh

theorem Inv.tried {st a} (i : Inv st a) (t : Nat) : Inv { st with tries := t } a where
  owned := i.owned
  own := i.own
  room := i.room
  none := i.none
  texts := i.texts
  refs := i.refs
  fresh := i.fresh

theorem Inv.heap_some {st a x b} (i : Inv st a) (h : (st.vars x).blk = some b) : st.heap b = some (st.elems x) := by
  have := (i.owned b).mpr ⟨x, h⟩
  rw [elems_some h]
  cases e : st.heap b with
  | none => rw [e] at this; cases this
  | some s => rfl

theorem Inv.lt_next {st a x b} (i : Inv st a) (h : (st.vars x).blk = some b) : b < st.next := by
  rcases Nat.lt_or_ge b st.next with c | c
  · exact c
  · have := i.heap_some h
    rw [i.fresh b c] at this
    cases this

@[simp] theorem put_text (a : Texts) (x y : Nat) (s : Str) : (a.put x s).text y = if y = x then s else a.text y := rfl

@[simp] theorem put_place (a : Texts) (x : Nat) (s : Str) : (a.put x s).place = a.place := rfl

theorem put_self (a : Texts) (x : Nat) : a.put x (a.text x) = a := by
  cases a with
  | mk t p =>
    simp only [Texts.put, Texts.mk.injEq, and_true]
    funext y
    split
    · subst_vars; rfl
    · rfl

theorem put_put (a : Texts) (x : Nat) (s t : Str) : (a.put x s).put x t = a.put x t := by
  simp only [Texts.put, Texts.mk.injEq, and_true]
  funext y
  split <;> simp_all

/-- The storage of a variable ends. -/
theorem Inv.release {st a} (i : Inv st a) (x : Nat) : Inv (st.release x) (a.put x []) ∧ (st.release x).vars x = {} ∧
    (st.release x).next = st.next ∧ ∀ y, y ≠ x → (st.release x).vars y = st.vars y := by
  cases hb : (st.vars x).blk with
  | none =>
    have e : st.release x = st := by simp [State.release, hb]
    rw [e]
    have hv : st.vars x = {} := by
      have := (i.none x).mp hb
      cases hv : st.vars x with
      | mk b c => rw [hv] at hb this; subst hb this; rfl
    refine ⟨i.congr (fun y => ?_) rfl, hv, rfl, fun _ _ => rfl⟩
    by_cases c : y = x
    · subst c; rw [← i.texts y, elems_none hb]; simp
    · simp [c]
  | some b =>
    have e : st.release x = { st with
      heap := fun b' => if b' = b then none else st.heap b'
      refs := fun r => match st.refs r with
        | some (b', i) => if b' = b then none else some (b', i)
        | none => none
      vars := fun y => if y = x then {} else st.vars y } := by simp [State.release, hb]; rfl
    have ne : ∀ y c, y ≠ x → (st.vars y).blk = some c → c ≠ b := fun y c yx h cb => yx (i.own y x b (cb ▸ h) hb)
    have el : ∀ y, y ≠ x → (st.release x).elems y = st.elems y := by
      intro y yx
      rw [e]
      cases hy : (st.vars y).blk with
      | none => rw [elems_none hy, elems_none (by simp [yx, hy])]
      | some c => rw [elems_some hy, elems_some (b := c) (by simp [yx, hy])]; simp [ne y c yx hy]
    have ex : (st.release x).elems x = [] := elems_none (by rw [e]; simp)
    refine ⟨⟨⟨?_, ?_, ?_, ?_⟩, ?_, ?_, ?_⟩, by rw [e]; simp, by rw [e], fun y yx => by rw [e]; simp [yx]⟩
    · intro c
      rw [e]
      by_cases cb : c = b
      · subst cb
        simp only [if_true, Option.isSome_none, Bool.false_eq_true, false_iff, not_exists]
        intro y hy
        by_cases yx : y = x
        · subst yx; simp at hy
        · simp only [yx, if_false] at hy; exact ne y c yx hy rfl
      · simp only [cb, if_false]
        rw [i.owned c]
        constructor
        · rintro ⟨y, hy⟩
          refine ⟨y, ?_⟩
          have : y ≠ x := fun yx => by subst yx; rw [hb] at hy; cases hy; exact cb rfl
          simp [this, hy]
        · rintro ⟨y, hy⟩
          by_cases yx : y = x
          · subst yx; simp at hy
          · simp only [yx, if_false] at hy; exact ⟨y, hy⟩
    · intro y z c hy hz
      rw [e] at hy hz
      by_cases yx : y = x
      · subst yx; simp at hy
      · by_cases zx : z = x
        · subst zx; simp at hz
        · simp only [yx, zx, if_false] at hy hz; exact i.own y z c hy hz
    · intro y
      by_cases yx : y = x
      · subst yx; rw [ex]; simp
      · rw [el y yx, e]; simp only [yx, if_false]; exact i.room y
    · intro y
      rw [e]
      by_cases yx : y = x
      · subst yx; simp
      · simp only [yx, if_false]; exact i.none y
    · intro y
      by_cases yx : y = x
      · subst yx; rw [ex]; simp
      · rw [el y yx]; simp [yx, i.texts y]
    · intro r p h
      rw [e] at h
      simp only at h
      cases hr : st.refs r with
      | none => rw [hr] at h; cases h
      | some q =>
        obtain ⟨b', j⟩ := q
        rw [hr] at h
        simp only at h
        split at h
        · cases h
        · rename_i nb
          cases h
          obtain ⟨h1, h2, h3⟩ := i.refs r _ hr
          have px : (a.place r).1 ≠ x := fun c => by rw [c, hb] at h1; cases h1; exact nb rfl
          refine ⟨?_, h2, ?_⟩
          · rw [e]; simp only [put_place, px, if_false]; exact h1
          · simp only [put_place, put_text, px, if_false]; exact h3
    · intro c hc
      rw [e] at hc ⊢
      have : c ≠ b := fun cb => absurd (i.lt_next hb) (by subst cb; exact Nat.not_lt.mpr hc)
      simp only [this, if_false]
      exact i.fresh c hc

/-- A variable gets new storage. -/
theorem Inv.replace {st a} (i : Inv st a) (x : Nat) (s : Str) (cap : Nat) (h : s.length ≤ cap) (hc : 0 < cap) :
    Inv (st.replace x s cap) (a.put x s) := by
  obtain ⟨i, vx, nx, vy⟩ := i.release x
  have e : st.replace x s cap = { st.release x with
    heap := fun b => if b = (st.release x).next then some s else (st.release x).heap b
    vars := fun y => if y = x then ⟨some (st.release x).next, cap⟩ else (st.release x).vars y
    next := (st.release x).next + 1 } := rfl
  rw [e]
  generalize st.release x = t at i vx
  have ne : ∀ y c, (t.vars y).blk = some c → c ≠ t.next := fun y c h cn => absurd (i.lt_next h) (by omega)
  have el : ∀ y, State.elems { t with
    heap := fun b => if b = t.next then some s else t.heap b
    vars := fun y => if y = x then ⟨some t.next, cap⟩ else t.vars y
    next := t.next + 1 } y = if y = x then s else t.elems y := by
    intro y
    by_cases yx : y = x
    · subst yx; rw [elems_some (b := t.next) (by simp)]; simp
    · simp only [yx, if_false]
      cases hy : (t.vars y).blk with
      | none => rw [elems_none hy, elems_none (by simp [yx, hy])]
      | some c => rw [elems_some hy, elems_some (b := c) (by simp [yx, hy])]; simp [ne y c hy]
  refine ⟨⟨?_, ?_, ?_, ?_⟩, ?_, ?_, ?_⟩
  · intro b
    by_cases bn : b = t.next
    · subst bn
      simp only [if_true, Option.isSome_some, true_iff]
      exact ⟨x, by simp⟩
    · simp only [bn, if_false]
      rw [i.owned b]
      constructor
      · rintro ⟨y, hy⟩
        have : y ≠ x := fun c => by subst c; rw [vx] at hy; cases hy
        exact ⟨y, by simp [this, hy]⟩
      · rintro ⟨y, hy⟩
        by_cases yx : y = x
        · subst yx; simp at hy; exact absurd hy.symm bn
        · simp only [yx, if_false] at hy; exact ⟨y, hy⟩
  · intro y z c hy hz
    simp only at hy hz
    by_cases yx : y = x
    · by_cases zx : z = x
      · rw [yx, zx]
      · simp only [yx, zx, if_true, if_false, Option.some.injEq] at hy hz
        exact absurd hy.symm (ne z c hz)
    · by_cases zx : z = x
      · simp only [yx, zx, if_true, if_false, Option.some.injEq] at hy hz
        exact absurd hz.symm (ne y c hy)
      · simp only [yx, zx, if_false] at hy hz; exact i.own y z c hy hz
  · intro y
    rw [el y]
    by_cases yx : y = x
    · simp [yx, h]
    · simp only [yx, if_false]; exact i.room y
  · intro y
    by_cases yx : y = x
    · simp [yx]; omega
    · simp only [yx, if_false]; exact i.none y
  · intro y
    rw [el y]
    by_cases yx : y = x
    · simp [yx]
    · simp only [yx, if_false, put_text]
      rw [i.texts y]; simp [yx]
  · intro r p hr
    obtain ⟨h1, h2, h3⟩ := i.refs r p hr
    have px : (a.place r).1 ≠ x := fun c => by simp only [put_place] at h1; rw [c, vx] at h1; cases h1
    refine ⟨?_, h2, ?_⟩
    · simp only [put_place, px, if_false]; exact h1
    · simp only [put_place, put_text, px, if_false] at h3 ⊢; exact h3
  · intro b hb
    simp only at hb ⊢
    rw [if_neg (by omega)]
    exact i.fresh b (by omega)

theorem Inv.become {st a} (i : Inv st a) (x : Nat) (s : Str) (cap : Nat) (h : s.length ≤ cap) : Inv (st.become x s cap) (a.put x s) := by
  unfold State.become
  by_cases c : cap = 0
  · subst c
    have : s = [] := List.length_eq_zero_iff.mp (by omega)
    subst this
    simpa using (i.release x).1
  · rw [if_neg c]; exact i.replace x s cap h (by omega)

/-- A variable gets other elements in its storage. -/
theorem Inv.inPlace {st a} (i : Inv st a) (x : Nat) (s : Str) (keep : Nat) (h : s.length ≤ (st.vars x).cap) (hk : keep ≤ s.length) :
    Inv (st.inPlace x s keep) (a.put x s) := by
  cases hb : (st.vars x).blk with
  | none =>
    have e : st.inPlace x s keep = st := by simp [State.inPlace, hb]
    have : s = [] := List.length_eq_zero_iff.mp (by have := (i.none x).mp hb; omega)
    subst this
    rw [e]
    refine i.congr (fun y => ?_) rfl
    by_cases c : y = x
    · subst c; rw [← i.texts y, elems_none hb]; simp
    · simp [c]
  | some b =>
    have e : st.inPlace x s keep = { st with
      heap := fun b' => if b' = b then some s else st.heap b'
      refs := fun r => match st.refs r with
        | some (b', i) => if b' = b ∧ keep ≤ i then none else some (b', i)
        | none => none } := by simp [State.inPlace, hb]; rfl
    have ne : ∀ y c, y ≠ x → (st.vars y).blk = some c → c ≠ b := fun y c yx h cb => yx (i.own y x b (cb ▸ h) hb)
    have el : ∀ y, (st.inPlace x s keep).elems y = if y = x then s else st.elems y := by
      intro y
      rw [e]
      by_cases yx : y = x
      · subst yx; rw [elems_some (b := b) (by exact hb)]; simp
      · simp only [yx, if_false]
        cases hy : (st.vars y).blk with
        | none => rw [elems_none hy]; exact elems_none (by exact hy)
        | some c => rw [elems_some (st := st) hy, elems_some (b := c) (by exact hy)]; simp [ne y c yx hy]
    have ev : (st.inPlace x s keep).vars = st.vars := by rw [e]
    refine ⟨⟨?_, ?_, ?_, ?_⟩, ?_, ?_, ?_⟩
    · intro c
      rw [ev, ← i.owned c, e]
      by_cases cb : c = b
      · subst cb
        simp only [if_true, Option.isSome_some, true_iff]
        exact (i.owned c).mpr ⟨x, hb⟩
      · simp [cb]
    · rw [ev]; exact i.own
    · intro y
      rw [el, ev]
      by_cases yx : y = x
      · simp [yx, h]
      · simp only [yx, if_false]; exact i.room y
    · rw [ev]; exact i.none
    · intro y
      rw [el]
      by_cases yx : y = x
      · simp [yx]
      · simp [yx, i.texts y]
    · intro r p hr
      rw [ev]
      rw [e] at hr
      simp only at hr
      cases hq : st.refs r with
      | none => rw [hq] at hr; cases hr
      | some q =>
        obtain ⟨b', j⟩ := q
        rw [hq] at hr
        simp only at hr
        split at hr
        · cases hr
        · rename_i nb
          cases hr
          obtain ⟨h1, h2, h3⟩ := i.refs r _ hq
          refine ⟨h1, h2, ?_⟩
          by_cases px : (a.place r).1 = x
          · rw [px] at h1
            simp only [put_place, put_text, px, if_true]
            simp only [hb, Option.some.injEq] at h1
            simp only [not_and, Nat.not_le] at nb
            have := nb h1.symm
            simp only at h2 this ⊢
            omega
          · simp only [put_place, put_text, px, if_false]; exact h3
    · intro c hc
      rw [e] at hc ⊢
      have : c ≠ b := fun cb => absurd (i.lt_next hb) (by subst cb; exact Nat.not_lt.mpr hc)
      simp only [this, if_false]
      exact i.fresh c hc

theorem Inv.arg {st a c ch} (i : Inv st a) (h : Arg.read st c = .ok ch) : ch = a.arg c := by
  cases c with
  | value c => cases h; rfl
  | ref r =>
    simp only [Arg.read] at h
    split at h
    · cases h
    · rename_i b j hr
      obtain ⟨h1, h2, h3⟩ := i.refs r _ hr
      have hh := i.heap_some h1
      simp only at hh
      rw [hh] at h
      simp only [vecGet] at h
      simp only [Texts.arg, Texts.charAt]
      rw [← i.texts, ← h2]
      simp only
      split at h <;> simp_all

section
variable {P : Policy} {fails : Nat → Bool}

theorem Inv.push {st a} (i : Inv st a) (x : Nat) (c : Chr) {ok : Bool} {st' : State} (h : StrMem.push P fails st x c = (ok, st')) :
    Inv st' (if ok then a.put x (a.text x ++ [c]) else a) := by
  unfold StrMem.push at h
  simp only at h
  split at h
  · rename_i hl
    cases h
    have := i.inPlace x (st.elems x ++ [c]) (st.elems x).length (by simp; omega) (by simp)
    rw [i.texts] at this
    simpa [i.texts] using this
  · split at h
    · cases h; simpa using i.tried _
    · cases h
      rename_i hl _
      have := (i.tried (st.tries + 1)).replace x (st.elems x ++ [c]) (P.one (st.vars x).cap)
        (by have := P.one_lt (st.vars x).cap; have := i.room x; simp; omega) (by have := P.one_lt (st.vars x).cap; omega)
      simpa [i.texts] using this

theorem Inv.appendLoop {x : Nat} {cs : Str} : ∀ {st a}, Inv st a → ∀ {ok : Bool} {st' : State}, StrMem.appendLoop P fails x cs st = (ok, st') →
    if ok then Inv st' (a.put x (a.text x ++ cs)) else ∃ k < cs.length, Inv st' (a.put x (a.text x ++ cs.take k)) := by
  induction cs with
  | nil =>
    intro st a i ok st' h
    cases h
    simpa [put_self] using i
  | cons c cs ih =>
    intro st a i ok st' h
    simp only [StrMem.appendLoop] at h
    cases hp : StrMem.push P fails st x c with
    | mk ok1 st1 =>
      have i1 := i.push x c hp
      rw [hp] at h
      cases ok1 with
      | true =>
        simp only at h
        have := ih i1 h
        simp only [if_true, put_put, put_text] at this
        cases ok with
        | true => simpa using this
        | false =>
          simp only [Bool.false_eq_true, if_false] at this ⊢
          obtain ⟨k, hk, hi⟩ := this
          exact ⟨k + 1, by simpa using hk, by simpa using hi⟩
      | false =>
        cases h
        simp only [Bool.false_eq_true, if_false] at i1 ⊢
        exact ⟨0, by simp, by simpa [put_self] using i1⟩

theorem Inv.charAt_append {st a r} (i : Inv st a) (p : Nat × Nat) (h : st.refs r = some p) (x : Nat) (cs : Str) :
    (a.put x (a.text x ++ cs)).charAt (a.place r) = a.charAt (a.place r) := by
  obtain ⟨h1, h2, h3⟩ := i.refs r p h
  simp only [Texts.charAt, put_text]
  split
  · rename_i e
    rw [← e, List.getElem?_append_left (by omega)]
  · rfl

theorem Inv.countLoop {x : Nat} {c : Arg} {n : Nat} : ∀ {st a}, Inv st a → ∀ {ok : Bool} {st' : State},
    StrMem.countLoop P fails x c n st = .ok (ok, st') →
    if ok then Inv st' (a.put x (a.text x ++ List.replicate n (a.arg c)))
    else ∃ k < n, Inv st' (a.put x (a.text x ++ List.replicate k (a.arg c))) := by
  induction n with
  | zero =>
    intro st a i ok st' h
    cases h
    simpa [put_self] using i
  | succ n ih =>
    intro st a i ok st' h
    simp only [StrMem.countLoop, bind, Except.bind] at h
    cases hr : Arg.read st c with
    | error e => rw [hr] at h; cases h
    | ok ch =>
      rw [hr] at h
      simp only at h
      have hc := i.arg hr
      subst hc
      have same : (a.put x (a.text x ++ [a.arg c])).arg c = a.arg c := by
        cases c with
        | value => rfl
        | ref r =>
          simp only [Arg.read] at hr
          split at hr
          · cases hr
          · rename_i b j hb
            exact i.charAt_append (b, j) hb x _
      cases hp : StrMem.push P fails st x (a.arg c) with
      | mk ok1 st1 =>
        have i1 := i.push x _ hp
        rw [hp] at h
        cases ok1 with
        | true =>
          simp only at h
          have := ih i1 h
          simp only [if_true, put_put, put_text, same] at this
          cases ok with
          | true => simpa [List.replicate_succ] using this
          | false =>
            simp only [Bool.false_eq_true, if_false] at this ⊢
            obtain ⟨k, hk, hi⟩ := this
            exact ⟨k + 1, by omega, by simpa [List.replicate_succ] using hi⟩
        | false =>
          cases h
          simp only [Bool.false_eq_true, if_false] at i1 ⊢
          exact ⟨0, by omega, by simpa [put_self] using i1⟩

theorem Inv.insertAt {st a} (i : Inv st a) (x pos : Nat) (cs : Str) (hp : pos ≤ (a.text x).length) {ok : Bool} {st' : State}
    (h : StrMem.insertAt P fails st x pos cs = (ok, st')) :
    Inv st' (if ok then a.put x ((a.text x).take pos ++ cs ++ (a.text x).drop pos) else a) := by
  unfold StrMem.insertAt at h
  simp only at h
  have ht := i.texts x
  split at h
  · rename_i e
    cases h
    subst e
    simpa [put_self] using i
  · split at h
    · cases h
      have := i.inPlace x ((st.elems x).take pos ++ cs ++ (st.elems x).drop pos) pos (by simp; omega) (by rw [← ht] at hp; simp; omega)
      rw [ht] at this
      simpa [ht] using this
    · split at h
      · cases h; simpa using i.tried _
      · cases h
        rename_i ne _ _
        have hl : 0 < cs.length := List.length_pos_iff.mpr ne
        have := P.many_le (st.elems x).length cs.length
        have := (i.tried (st.tries + 1)).replace x ((st.elems x).take pos ++ cs ++ (st.elems x).drop pos)
          (P.many (st.elems x).length cs.length) (by simp; omega) (by omega)
        simpa [ht] using this

theorem build_cap (cs : Str) : ∀ (cap len t cap' t' : Nat), len ≤ cap → build P fails cs cap len t = (some cap', t') →
    len + cs.length ≤ cap' := by
  induction cs with
  | nil => intro cap len t cap' t' hl h; cases h; simpa using hl
  | cons c cs ih =>
    intro cap len t cap' t' hl h
    simp only [build] at h
    split at h
    · have := ih _ _ _ _ _ (by omega) h
      simp; omega
    · split at h
      · cases h
      · have := ih _ _ _ _ _ (by have := P.one_lt cap; omega) h
        simp; omega

theorem Inv.twice {st a} (i : Inv st a) (n : Nat) {ok : Bool} {st' : State} (h : StrMem.twice fails n st = (ok, st')) : Inv st' a := by
  unfold StrMem.twice at h
  split at h
  · cases h; exact i
  · split at h
    · cases h; exact i.tried _
    · split at h
      · cases h; exact i.tried _
      · cases h; exact i.tried _

theorem finish_ok {q : Bool × State} {o : Out} {st : State} (h : finish q = .ok (o, st)) :
    (q = (true, st) ∧ o = .done) ∨ (q = (false, st) ∧ o = .noMemory) := by
  obtain ⟨ok, s⟩ := q
  cases ok <;> (cases h; simp)

theorem Inv.move {st a} (i : Inv st a) (x y : Nat) (ne : x ≠ y) :
    Inv { st.release x with vars := fun z => if z = x then st.vars y else if z = y then {} else (st.release x).vars z }
      { (a.put x (a.text y)).put y [] with place := fun r => carry x y (a.place r) } := by
  obtain ⟨j, vx, nx, vy⟩ := i.release x
  have tx : ∀ z, z ≠ x → (st.release x).elems z = a.text z := fun z h => by rw [j.texts z]; simp [h]
  have vyy := vy y (Ne.symm ne)
  rw [← vyy]
  generalize st.release x = t at j vx tx
  have el : ∀ z, State.elems { t with vars := fun z => if z = x then t.vars y else if z = y then {} else t.vars z } z =
      if z = x then t.elems y else if z = y then [] else t.elems z := by
    intro z
    by_cases zx : z = x
    · simp [State.elems, zx]
    · by_cases zy : z = y
      · simp [State.elems, zy, Ne.symm ne]
      · simp [State.elems, zx, zy]
  refine ⟨⟨?_, ?_, ?_, ?_⟩, ?_, ?_, ?_⟩
  · intro b
    simp only
    rw [j.owned b]
    constructor
    · rintro ⟨z, hz⟩
      by_cases zy : z = y
      · exact ⟨x, by simp [← zy, hz]⟩
      · have zx : z ≠ x := fun c => by subst c; rw [vx] at hz; cases hz
        exact ⟨z, by simp [zx, zy, hz]⟩
    · rintro ⟨z, hz⟩
      by_cases zx : z = x
      · exact ⟨y, by simpa [zx] using hz⟩
      · by_cases zy : z = y
        · simp [zy, Ne.symm ne] at hz
        · exact ⟨z, by simpa [zx, zy] using hz⟩
  · intro u v b hu hv
    simp only at hu hv
    by_cases ux : u = x
    · by_cases vx' : v = x
      · rw [ux, vx']
      · by_cases vy' : v = y
        · simp [vy', Ne.symm ne] at hv
        · simp only [ux, if_true, vx', vy', if_false] at hu hv
          exact absurd (j.own v y b hv hu) vy'
    · by_cases uy : u = y
      · simp [uy, Ne.symm ne] at hu
      · by_cases vx' : v = x
        · simp only [ux, uy, vx', if_true, if_false] at hu hv
          exact absurd (j.own u y b hu hv) uy
        · by_cases vy' : v = y
          · simp [vy', Ne.symm ne] at hv
          · simp only [ux, uy, vx', vy', if_false] at hu hv
            exact j.own u v b hu hv
  · intro z
    rw [el]
    by_cases zx : z = x
    · simp only [zx, if_true]; exact j.room y
    · by_cases zy : z = y
      · simp [zy, Ne.symm ne]
      · simp only [zx, zy, if_false]; exact j.room z
  · intro z
    by_cases zx : z = x
    · simp only [zx, if_true]; exact j.none y
    · by_cases zy : z = y
      · simp [zy, Ne.symm ne]
      · simp only [zx, zy, if_false]; exact j.none z
  · intro z
    rw [el]
    by_cases zx : z = x
    · subst zx; simp [ne, tx y (Ne.symm ne)]
    · by_cases zy : z = y
      · subst zy; simp [zx]
      · simp [zx, zy, tx z zx]
  · intro r p hr
    obtain ⟨h1, h2, h3⟩ := j.refs r p hr
    simp only [put_place] at h1 h2 h3
    have px : (a.place r).1 ≠ x := fun c => by rw [c, vx] at h1; cases h1
    simp only [put_text, px, if_false] at h3
    simp only [carry]
    by_cases py : (a.place r).1 = y
    · simp only [py, if_true, put_text, ne, if_false]
      rw [py] at h1 h3
      exact ⟨h1, h2, h3⟩
    · simp only [py, if_false, px, put_text]
      exact ⟨h1, h2, h3⟩
  · exact j.fresh

theorem Inv.set {st a} (i : Inv st a) {r b j : Nat} (hr : st.refs r = some (b, j)) {s : Str} (hs : st.heap b = some s) (c : Chr) :
    Inv { st with heap := fun b' => if b' = b then some (s.set j c) else st.heap b' }
      (a.put (a.place r).1 ((a.text (a.place r).1).set (a.place r).2 c)) := by
  obtain ⟨h1, h2, h3⟩ := i.refs r _ hr
  simp only at h1 h2 h3
  generalize hx : (a.place r).1 = x at h1 h2 h3
  have hh := i.heap_some h1
  rw [hs] at hh
  cases hh
  have := i.inPlace x ((st.elems x).set j c) ((st.elems x).length) (by simpa using i.room x) (by simp)
  have e : st.inPlace x ((st.elems x).set j c) (st.elems x).length =
      { st with heap := fun b' => if b' = b then some ((st.elems x).set j c) else st.heap b' } := by
    simp only [State.inPlace, h1]
    congr 1
    funext q
    cases hq : st.refs q with
    | none => rfl
    | some p =>
      obtain ⟨b', k⟩ := p
      simp only
      rw [if_neg]
      rintro ⟨rfl, hk⟩
      obtain ⟨g1, g2, g3⟩ := i.refs q _ hq
      have := i.own _ _ _ g1 h1
      rw [this] at g3
      rw [i.texts x] at hk
      simp only at g3
      omega
  rw [e] at this
  rw [i.texts x] at this ⊢
  rw [← h2]
  exact this

theorem Inv.refer {st a} (i : Inv st a) {x b j : Nat} (r : Nat) (hb : (st.vars x).blk = some b) (hj : j < (st.elems x).length) :
    Inv { st with refs := fun q => if q = r then some (b, j) else st.refs q }
      { a with place := fun q => if q = r then (x, j) else a.place q } where
  owned := i.owned
  own := i.own
  room := i.room
  none := i.none
  texts := i.texts
  refs q p h := by
    simp only at h ⊢
    split at h
    · cases h
      rename_i e
      simp only [e, if_true, true_and]
      exact ⟨hb, by rw [← i.texts]; exact hj⟩
    · rename_i e
      simp only [e, if_false]
      exact i.refs q p h
  fresh := i.fresh

/-- A statement does what the texts say. -/
theorem Inv.step {st a} (i : Inv st a) {s : StrMem.Stmt} {o : Out} {st' : State} (h : StrMem.step P fails st s = .ok (o, st')) :
    ∃ b, TextStep a s o b ∧ Inv st' b := by
  have ins : ∀ {x pos cs st1 st' o}, Inv st1 a → pos ≤ (a.text x).length → finish (StrMem.insertAt P fails st1 x pos cs) = .ok (o, st') →
      (o = .done ∧ Inv st' (a.put x ((a.text x).take pos ++ cs ++ (a.text x).drop pos))) ∨ (o = .noMemory ∧ Inv st' a) := by
    intro x pos cs st1 st' o i hp h
    rcases finish_ok h with ⟨hi, rfl⟩ | ⟨hi, rfl⟩
    · exact .inl ⟨rfl, by simpa using i.insertAt x pos cs hp hi⟩
    · exact .inr ⟨rfl, by simpa using i.insertAt x pos cs hp hi⟩
  cases s with
  | literal x cs =>
    simp only [StrMem.step] at h
    cases hb : build P fails cs 0 0 st.tries with
    | mk q t =>
      rw [hb] at h
      cases q with
      | some cap =>
        cases h
        exact ⟨_, .inl rfl, (i.tried t).become x cs cap (by simpa using build_cap cs _ _ _ _ _ (Nat.le_refl _) hb)⟩
      | none =>
        cases h
        exact ⟨a, .inr ⟨rfl, rfl⟩, i.tried t⟩
  | plus x y z =>
    simp only [StrMem.step] at h
    cases hb : StrMem.twice fails (st.elems y ++ st.elems z).length st with
    | mk q t =>
      rw [hb] at h
      have i1 := i.twice _ hb
      cases q with
      | true =>
        cases h
        refine ⟨_, .inl rfl, ?_⟩
        rw [i.texts, i.texts]
        exact i1.become x _ _ (Nat.le_refl _)
      | false => cases h; exact ⟨a, .inr ⟨rfl, rfl⟩, i1⟩
  | substring x y pos count =>
    simp only [StrMem.step] at h
    split at h
    · rename_i hp
      cases h
      rw [i.texts] at hp
      exact ⟨a, .inl (by simp only [textMeaning]; rw [if_neg (by omega)]), i⟩
    · rename_i hp
      rw [i.texts] at hp h
      cases hb : StrMem.twice fails (((a.text y).drop pos).take count).length st with
      | mk q t =>
        rw [hb] at h
        have i1 := i.twice _ hb
        cases q with
        | true =>
          cases h
          exact ⟨_, .inl (by simp only [textMeaning]; rw [if_pos (by omega)]), i1.become x _ _ (Nat.le_refl _)⟩
        | false => cases h; exact ⟨a, .inr ⟨rfl, rfl⟩, i1⟩
  | copy x y =>
    simp only [StrMem.step] at h
    split at h
    · rename_i e
      cases h
      subst e
      exact ⟨a, .inl (by simp [textMeaning, put_self]), i⟩
    · split at h
      · rename_i hl
        cases h
        refine ⟨_, .inl rfl, ?_⟩
        have := i.inPlace x (st.elems y) 0 hl (Nat.zero_le _)
        rwa [i.texts y] at this ⊢
      · split at h
        · cases h; exact ⟨a, .inr ⟨rfl, rfl⟩, i.tried _⟩
        · rename_i hl _
          cases h
          refine ⟨_, .inl rfl, ?_⟩
          have := (i.tried (st.tries + 1)).replace x (st.elems y) (st.elems y).length (Nat.le_refl _) (by omega)
          rwa [i.texts y] at this ⊢
  | move x y =>
    simp only [StrMem.step] at h
    split at h
    · rename_i e
      cases h
      exact ⟨a, .inl (by simp [textMeaning, e]), i⟩
    · rename_i e
      cases h
      exact ⟨_, .inl (by simp only [textMeaning]; rw [if_neg e]), i.move x y e⟩
  | clear x =>
    cases h
    exact ⟨_, .inl rfl, i.inPlace x [] 0 (Nat.zero_le _) (Nat.le_refl _)⟩
  | push x c =>
    simp only [StrMem.step, bind, Except.bind] at h
    cases hr : Arg.read st c with
    | error e => rw [hr] at h; cases h
    | ok ch =>
      rw [hr] at h
      simp only at h
      have hc := i.arg hr
      subst hc
      rcases finish_ok h with ⟨hi, rfl⟩ | ⟨hi, rfl⟩
      · exact ⟨_, .inl rfl, by simpa using i.push x _ hi⟩
      · exact ⟨a, .inr ⟨rfl, rfl⟩, by simpa using i.push x _ hi⟩
  | append x cs =>
    simp only [StrMem.step] at h
    rcases finish_ok h with ⟨hi, rfl⟩ | ⟨hi, rfl⟩
    · exact ⟨_, .inl rfl, by simpa using i.appendLoop hi⟩
    · have := i.appendLoop hi
      simp only [Bool.false_eq_true, if_false] at this
      obtain ⟨k, hk, hi⟩ := this
      exact ⟨_, .inr ⟨rfl, k, hk, rfl⟩, hi⟩
  | appendCount x n c =>
    simp only [StrMem.step, bind, Except.bind] at h
    cases hr : StrMem.countLoop P fails x c n st with
    | error e => rw [hr] at h; cases h
    | ok q =>
      rw [hr] at h
      simp only at h
      rcases finish_ok h with ⟨rfl, rfl⟩ | ⟨rfl, rfl⟩
      · exact ⟨_, .inl rfl, by simpa using i.countLoop hr⟩
      · have := i.countLoop hr
        simp only [Bool.false_eq_true, if_false] at this
        obtain ⟨k, hk, hi⟩ := this
        exact ⟨_, .inr ⟨rfl, k, hk, rfl⟩, hi⟩
  | plusAssign x y =>
    simp only [StrMem.step] at h
    split at h
    · cases h
    · rw [i.texts, i.texts] at h
      rcases ins i (Nat.le_refl _) h with ⟨rfl, hi⟩ | ⟨rfl, hi⟩
      · exact ⟨_, .inl rfl, by simpa using hi⟩
      · exact ⟨a, .inr ⟨rfl, rfl⟩, hi⟩
  | insert x pos y =>
    simp only [StrMem.step] at h
    rw [i.texts, i.texts] at h
    split at h
    · cases h
      exact ⟨a, .inl (by simp only [textMeaning, Texts.inserted]; rw [if_neg (by omega)]), i⟩
    · rename_i hp
      split at h
      · cases h
      · rcases ins i (Nat.not_lt.mp hp) h with ⟨rfl, hi⟩ | ⟨rfl, hi⟩
        · exact ⟨_, .inl (by simp only [textMeaning, Texts.inserted]; rw [if_pos (by omega)]), hi⟩
        · exact ⟨a, .inr ⟨rfl, rfl⟩, hi⟩
  | insertLit x pos cs =>
    simp only [StrMem.step] at h
    rw [i.texts] at h
    split at h
    · cases h
      exact ⟨a, .inl (by simp only [textMeaning, Texts.inserted]; rw [if_neg (by omega)]), i⟩
    · rename_i hp
      cases hb : build P fails cs 0 0 st.tries with
      | mk q t =>
        rw [hb] at h
        cases q with
        | some cap =>
          simp only at h
          rcases ins (i.tried t) (Nat.not_lt.mp hp) h with ⟨rfl, hi⟩ | ⟨rfl, hi⟩
          · exact ⟨_, .inl (by simp only [textMeaning, Texts.inserted]; rw [if_pos (by omega)]), hi⟩
          · exact ⟨a, .inr ⟨rfl, rfl⟩, hi⟩
        | none => cases h; exact ⟨a, .inr ⟨rfl, rfl⟩, i.tried t⟩
  | insertCount x pos n c =>
    simp only [StrMem.step] at h
    rw [i.texts] at h
    split at h
    · cases h
      exact ⟨a, .inl (by simp only [textMeaning, Texts.inserted]; rw [if_neg (by omega)]), i⟩
    · rename_i hp
      simp only [bind, Except.bind] at h
      cases hr : Arg.read st c with
      | error e => rw [hr] at h; cases h
      | ok ch =>
        rw [hr] at h
        simp only at h
        have hc := i.arg hr
        subst hc
        rcases ins i (Nat.not_lt.mp hp) h with ⟨rfl, hi⟩ | ⟨rfl, hi⟩
        · exact ⟨_, .inl (by simp only [textMeaning, Texts.inserted]; rw [if_pos (by omega)]), hi⟩
        · exact ⟨a, .inr ⟨rfl, rfl⟩, hi⟩
  | at' r x j =>
    simp only [StrMem.step] at h
    cases hb : (st.vars x).blk with
    | none =>
      rw [hb] at h
      cases h
      refine ⟨a, .inl ?_, i⟩
      simp only [textMeaning]
      rw [if_neg (by rw [← i.texts, elems_none hb]; simp)]
    | some b =>
      rw [hb] at h
      simp only at h
      split at h
      · rename_i hj
        cases h
        refine ⟨_, .inl ?_, i.refer r hb hj⟩
        simp only [textMeaning]
        rw [if_pos (by rw [← i.texts]; exact hj)]
      · rename_i hj
        cases h
        refine ⟨a, .inl ?_, i⟩
        simp only [textMeaning]
        rw [if_neg (by rw [← i.texts]; exact hj)]
  | index r x j =>
    simp only [StrMem.step] at h
    cases hb : (st.vars x).blk with
    | none => rw [hb] at h; cases h
    | some b =>
      rw [hb] at h
      simp only at h
      split at h
      · rename_i hj
        cases h
        exact ⟨_, .inl rfl, i.refer r hb hj⟩
      · cases h
  | set r c =>
    simp only [StrMem.step] at h
    split at h
    · cases h
    · rename_i b j hr
      split at h
      · cases h
      · rename_i s hs
        cases h
        exact ⟨_, .inl rfl, i.set hr hs c⟩
  | get r =>
    simp only [StrMem.step, bind, Except.bind] at h
    cases hr : Arg.read st (.ref r) with
    | error e => rw [hr] at h; cases h
    | ok ch =>
      rw [hr] at h
      cases h
      have := i.arg hr
      subst this
      exact ⟨a, .inl rfl, i⟩
  | read x =>
    cases h
    exact ⟨a, .inl (by simp [textMeaning, i.texts x]), i⟩

theorem Inv.run {st a} {p : List StrMem.Stmt} (i : Inv st a) {os : List Out} {st' : State} (h : StrMem.run P fails st p = .ok (os, st')) :
    ∃ b, TextRun a p os b ∧ Inv st' b := by
  induction p generalizing st a os with
  | nil => cases h; exact ⟨a, .nil, i⟩
  | cons s p ih =>
    simp only [StrMem.run, bind, Except.bind] at h
    cases hs : StrMem.step P fails st s with
    | error e => rw [hs] at h; cases h
    | ok q =>
      obtain ⟨o, st1⟩ := q
      rw [hs] at h
      simp only at h
      obtain ⟨b, hb, ib⟩ := i.step hs
      cases hr : StrMem.run P fails st1 p with
      | error e => rw [hr] at h; cases h
      | ok q =>
        obtain ⟨os', st2⟩ := q
        rw [hr] at h
        cases h
        obtain ⟨c, hc, ic⟩ := ih ib hr
        exact ⟨c, .cons hb hc, ic⟩

end
end Caitlyn.StrMem
