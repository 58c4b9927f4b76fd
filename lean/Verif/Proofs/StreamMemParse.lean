import Verif.Proofs.StreamMem
import Verif.Proofs.BigIntDiv

/-! # Helper lemmas: parsing with streams that cannot grow -/

namespace Caitlyn
namespace StreamMem
open Caitlyn.Spec JsonParser
variable {F : Type}

/-! ### Enough memory -/

theorem compareAt_none (s : Str) (p : Nat) (text : List UInt8) : compareAt none s p text = JsonParser.compareAt s p text := by
  simp only [compareAt, JsonParser.compareAt, str_eq, cut]

theorem stringLoop_none (s : Str) : ∀ (n : Nat) (st : PState) (out : List UInt8),
    stringLoop (F := F) none s n st ⟨out, false⟩ = JsonParser.stringLoop s n st out
  | 0, _, _ => rfl
  | n + 1, st, out => by
    have ih := stringLoop_none s n
    simp only [stringLoop, JsonParser.stringLoop, Out.insert, stringEnd, JsonParser.stringEnd, Bool.false_eq_true, if_false, ih]
    rfl

theorem convert_none (ops : FloatOps F) (t : Str) : convert none ops t = JsonParser.convert ops t := by
  simp only [convert, JsonParser.convert, str_eq, cut]
  rfl

theorem all_none (ops : FloatOps F) (s : Str) : ∀ (n : Nat),
    parseValue {} ops s n = JsonParser.parseValue ops s n ∧ objectLoop {} ops s n = JsonParser.objectLoop ops s n ∧
    arrayLoop {} ops s n = JsonParser.arrayLoop ops s n
  | 0 => ⟨rfl, rfl, rfl⟩
  | n + 1 => by
    obtain ⟨h1, h2, h3⟩ := all_none ops s n
    refine ⟨?_, ?_, ?_⟩
    · funext st
      simp only [parseValue, JsonParser.parseValue, h2, h3, parseString, JsonParser.parseString, stringLoop_none, parseBoolean,
        JsonParser.parseBoolean, parseNull, JsonParser.parseNull, compareAt_none, parseNumber, JsonParser.parseNumber, convert_none,
        Bool.false_eq_true, if_false]
      rfl
    · funext st ms
      simp only [objectLoop, JsonParser.objectLoop, h1, h2]
      rfl
    · funext st js
      simp only [arrayLoop, JsonParser.arrayLoop, h1, h3]
      rfl

theorem document_none (ops : FloatOps F) (s : Str) : document {} ops s = JsonParser.document ops s := by
  simp only [document, JsonParser.document, parse, JsonParser.parse, (all_none ops s _).1]

/-! ### An error stays -/

/-- The result is without an error only if the state was. -/
def Keeps (st : PState) (x : Res (Json F × PState)) : Prop := ∀ j st1, x = .ok (j, st1) → st1.err = .noError → st.err = .noError

theorem keeps_fail (st : PState) {e : JsonError} (he : e ≠ .noError) (p : Nat) : Keeps (F := F) st (fail e p) := by
  intro j st1 h h1
  cases h
  exact absurd h1 he

theorem keeps_ok (st : PState) (j : Json F) (p : Nat) : Keeps st (.ok (j, { st with pos := p })) := by
  intro j st1 h h1
  cases h
  exact h1

theorem keeps_bind {α : Type} (st : PState) (x : Res α) (f : α → Res (Json F × PState)) (h : ∀ a, x = .ok a → Keeps st (f a)) :
    Keeps st (x >>= f) := by
  cases x with
  | error e => intro j st1 h; cases h
  | ok a => exact h a rfl

theorem keeps_stringEnd (s : Str) (st : PState) (o : Out) : Keeps (F := F) st (stringEnd s st o) := by
  unfold stringEnd
  refine keeps_bind _ _ _ fun c _ => ?_
  split
  · exact keeps_bind _ _ _ fun v _ => keeps_ok st _ _
  · exact keeps_fail st (by decide) _

theorem keeps_stringLoop (room : Room) (s : Str) : ∀ (n : Nat) (st : PState) (o : Out), Keeps (F := F) st (stringLoop room s n st o)
  | 0, _, _ => by intro j st1 h; cases h
  | n + 1, st, o => by
    have ih : ∀ p o, Keeps (F := F) st (stringLoop room s n { st with pos := p } o) := fun p o => keeps_stringLoop room s n _ o
    rw [stringLoop]
    split
    · refine keeps_bind _ _ _ fun c _ => ?_
      split
      · exact keeps_stringEnd s st o
      · split
        · split
          · exact keeps_fail st (by decide) _
          · refine keeps_bind _ _ _ fun d _ => keeps_bind _ _ _ fun r hr => ?_
            cases r with
            | ok r => exact ih _ _
            | error e => exact keeps_fail st (by rw [escape_err hr]; decide) _
        · exact ih _ _
    · exact keeps_stringEnd s st o

theorem convert_err (room : Room) (ops : FloatOps F) {t : Str} {e : JsonError} (h : convert room ops t = .error e) : e ≠ .noError := by
  unfold convert at h
  split at h <;> split at h <;> cases h <;> decide

theorem memberKey_err {s : Str} {p q : Nat} {e : JsonError} (hk : memberKey s p = .ok (.error (e, q))) : e ≠ .noError := by
  unfold memberKey at hk
  obtain ⟨_, _, hk⟩ := bind_ok hk
  split at hk
  · cases hk; decide
  obtain ⟨_, _, hk⟩ := bind_ok hk
  obtain ⟨_, _, hk⟩ := bind_ok hk
  obtain ⟨_, _, hk⟩ := bind_ok hk
  split at hk
  · cases hk; decide
  obtain ⟨_, _, hk⟩ := bind_ok hk
  cases hk

theorem afterValue_err {s : Str} {c : Chr} {p q : Nat} {e : JsonError} (ha : afterValue s c p = .ok (.error e q)) :
    e ≠ .noError := by
  unfold afterValue at ha
  obtain ⟨_, _, ha⟩ := bind_ok ha
  obtain ⟨_, _, ha⟩ := bind_ok ha
  split at ha
  · obtain ⟨_, _, ha⟩ := bind_ok ha
    obtain ⟨_, _, ha⟩ := bind_ok ha
    split at ha <;> cases ha
    decide
  · split at ha <;> cases ha
    decide

theorem keeps_all (L : Limits) (ops : FloatOps F) (s : Str) : ∀ (n : Nat),
    (∀ st, Keeps st (parseValue L ops s n st)) ∧ (∀ st ms, Keeps st (objectLoop L ops s n st ms)) ∧
    (∀ st js, Keeps st (arrayLoop L ops s n st js))
  | 0 => ⟨(fun _ _ _ h => nomatch h), (fun _ _ _ _ h => nomatch h), (fun _ _ _ _ h => nomatch h)⟩
  | n + 1 => by
    obtain ⟨h1, h2, h3⟩ := keeps_all L ops s n
    refine ⟨?_, ?_, ?_⟩
    · intro st
      simp only [parseValue]
      refine keeps_bind _ _ _ fun p _ => ?_
      split
      · exact keeps_ok st _ _
      refine keeps_bind _ _ _ fun c _ => ?_
      split
      · exact keeps_stringLoop _ s _ _ _
      split
      · exact keeps_bind _ _ _ fun q _ => h2 _ _
      split
      · exact keeps_bind _ _ _ fun q _ => h3 _ _
      split
      · refine keeps_bind _ _ _ fun b _ => ?_
        split
        · exact keeps_ok st _ _
        refine keeps_bind _ _ _ fun b _ => ?_
        split
        · exact keeps_ok st _ _
        · exact keeps_fail st (by decide) _
      split
      · refine keeps_bind _ _ _ fun b _ => ?_
        split
        · exact keeps_ok st _ _
        · exact keeps_fail st (by decide) _
      refine keeps_bind _ _ _ fun cp _ => ?_
      split
      · refine keeps_bind _ _ _ fun len _ => keeps_bind _ _ _ fun number _ => ?_
        split
        · exact keeps_fail st (by decide) _
        · split
          · exact keeps_ok st _ _
          · next e he => exact keeps_fail st (convert_err _ ops he) _
      · exact keeps_fail st (by decide) _
    · intro st ms
      simp only [objectLoop]
      split
      · refine keeps_bind _ _ _ fun p _ => keeps_bind _ _ _ fun c _ => ?_
        split
        · exact keeps_ok st _ _
        split
        · refine keeps_bind _ _ _ fun k hk => ?_
          cases k with
          | error e =>
            obtain ⟨e, p⟩ := e
            exact keeps_fail st (memberKey_err hk) _
          | ok k =>
            obtain ⟨k, p⟩ := k
            refine keeps_bind _ _ _ fun r hr => ?_
            obtain ⟨v, st1⟩ := r
            have hv : ∀ x, Keeps (F := F) st1 x → Keeps st x := fun x hx j st2 e1 e2 => h1 { st with pos := p } _ _ hr (hx j st2 e1 e2)
            refine hv _ (keeps_bind _ _ _ fun a ha => ?_)
            cases a with
            | closed p => exact keeps_ok st1 _ _
            | more p => exact h2 _ _
            | error e p => exact keeps_fail st1 (afterValue_err ha) _
        · exact keeps_fail st (by decide) _
      · exact keeps_fail st (by decide) _
    · intro st js
      simp only [arrayLoop]
      split
      · refine keeps_bind _ _ _ fun p _ => keeps_bind _ _ _ fun c _ => ?_
        split
        · exact keeps_ok st _ _
        · refine keeps_bind _ _ _ fun r hr => ?_
          obtain ⟨v, st1⟩ := r
          have hv : ∀ x, Keeps (F := F) st1 x → Keeps st x := fun x hx j st2 e1 e2 => h1 { st with pos := p } _ _ hr (hx j st2 e1 e2)
          refine hv _ (keeps_bind _ _ _ fun a ha => ?_)
          cases a with
          | closed p => exact keeps_ok st1 _ _
          | more p => exact h3 _ _
          | error e p => exact keeps_fail st1 (afterValue_err ha) _
      · exact keeps_fail st (by decide) _

/-! ### Strings -/

theorem ofStdString_inv {bs : List UInt8} {v : Str} (h : Str.ofStdString bs = .ok v) :
    (∀ c ∈ v, Shape c.data) ∧ (bs = Str.str v ∨ ∃ rest, bs = Str.str v ++ 0 :: rest) := by
  obtain ⟨h1, rest, h2⟩ := Str.decodeLoop_ok _ _ _ h
  refine ⟨h1, ?_⟩
  rw [← Str.str_shapes v h1] at h2
  rcases List.eq_nil_or_concat rest with rfl | ⟨r, a, rfl⟩
  · left
    exact List.append_cancel_right h2
  · right
    refine ⟨r, ?_⟩
    have h3 : bs ++ [0] = (Str.str v ++ 0 :: r) ++ [a] := by rw [h2]; simp
    exact (List.append_inj' h3 rfl).1

theorem ofStdString_cut (room : Room) {bs : List UInt8} {v : Str} (h : Str.ofStdString bs = .ok v) :
    Str.ofStdString (cut room bs) = Str.ofStdString (cut room (Str.str v)) := by
  obtain ⟨hs, rfl | ⟨rest, rfl⟩⟩ := ofStdString_inv h
  · rfl
  · cases room with
    | none =>
      show Str.ofStdString _ = Str.ofStdString (Str.str v)
      rw [Str.ofStdString_str v hs]; exact h
    | some n =>
      show Str.ofStdString (List.take n _) = Str.ofStdString (List.take n _)
      by_cases hn : n ≤ (Str.str v).length
      · rw [List.take_append_of_le_length hn]
      · rw [List.take_of_length_le (l := Str.str v) (by omega), Str.ofStdString_str v hs]
        obtain ⟨m, hm⟩ : ∃ m, n = (Str.str v).length + (m + 1) := ⟨n - (Str.str v).length - 1, by omega⟩
        rw [hm, List.take_length_add_append, List.take_succ_cons]
        unfold Str.ofStdString
        rw [List.append_assoc, List.cons_append, Str.str_shapes v hs, Str.ofCStr_shapes _ (by
          intro p hp
          obtain ⟨c, hc, rfl⟩ := List.mem_map.mp hp
          exact hs c hc), List.map_map]
        exact congrArg _ (List.map_id v)

/-- A text that is read, after the cut. -/
def recut (room : Room) : Json F × PState → Res (Json F × PState)
  | (.str v, st) => do return (.str (← Str.ofStdString (cut room (Str.str v))), st)
  | r => .ok r

theorem recut_stringEnd (room : Room) (s : Str) (st : PState) (out : List UInt8) (r : Json F × PState)
    (h : JsonParser.stringEnd s st out = .ok r) : stringEnd s st (state room out) = recut room r := by
  unfold JsonParser.stringEnd at h
  unfold stringEnd
  obtain ⟨c, hc, h⟩ := bind_ok h
  rw [hc, ok_bind]
  split at h
  · rename_i hq
    obtain ⟨v, hv, h⟩ := bind_ok h
    cases h
    rw [if_pos hq, state_text, ofStdString_cut room hv]
    rfl
  · rename_i hq
    cases h
    rw [if_neg hq]; rfl

theorem recut_stringLoop (room : Room) (s : Str) : ∀ (n : Nat) (st : PState) (out : List UInt8) (r : Json F × PState),
    JsonParser.stringLoop s n st out = .ok r → stringLoop room s n st (state room out) = recut room r
  | 0, _, _, _, h => nomatch h
  | n + 1, st, out, r, h => by
    have ih := recut_stringLoop room s n
    rw [JsonParser.stringLoop] at h
    rw [stringLoop]
    split at h
    · rename_i hp
      rw [if_pos hp]
      obtain ⟨c, hc, h⟩ := bind_ok h
      rw [hc, ok_bind]
      split at h
      · rename_i hq
        rw [if_pos hq]
        exact recut_stringEnd room s st out r h
      · rename_i hq
        rw [if_neg hq]
        split at h
        · rename_i hb
          rw [if_pos hb]
          split at h
          · rename_i hl
            rw [if_pos hl]; cases h; rfl
          · rename_i hl
            rw [if_neg hl]
            obtain ⟨d, hd, h⟩ := bind_ok h
            obtain ⟨x, hx, h⟩ := bind_ok h
            rw [hd, ok_bind, hx, ok_bind]
            cases x with
            | ok x =>
              simp only [insert_state]
              exact ih _ _ _ h
            | error e => cases h; rfl
        · rename_i hb
          rw [if_neg hb, insert_state]
          exact ih _ _ _ h
    · rename_i hp
      rw [if_neg hp]
      exact recut_stringEnd room s st out r h

/-! ### Numbers -/

theorem dropWhile_take {α : Type} (p : α → Bool) : ∀ (t : List α) (m : Nat),
    (t.take m).dropWhile p = (t.dropWhile p).take (m - (t.takeWhile p).length)
  | [], m => by simp
  | a :: t, 0 => by simp
  | a :: t, m + 1 => by
    rw [List.take_succ_cons]
    cases h : p a with
    | true =>
      rw [List.dropWhile_cons_of_pos h, List.dropWhile_cons_of_pos h, List.takeWhile_cons_of_pos h, dropWhile_take p t m]
      simp
    | false =>
      rw [List.dropWhile_cons_of_neg (by simp [h]), List.dropWhile_cons_of_neg (by simp [h]), List.takeWhile_cons_of_neg (by simp [h])]
      simp

theorem takeWhile_take {α : Type} (p : α → Bool) : ∀ (t : List α) (m : Nat), (t.take m).takeWhile p = (t.takeWhile p).take m
  | [], m => by simp
  | a :: t, 0 => by simp
  | a :: t, m + 1 => by
    rw [List.take_succ_cons]
    cases h : p a with
    | true => rw [List.takeWhile_cons_of_pos h, List.takeWhile_cons_of_pos h, takeWhile_take p t m, List.take_succ_cons]
    | false => rw [List.takeWhile_cons_of_neg (by simp [h]), List.takeWhile_cons_of_neg (by simp [h])]; simp

theorem sign_take (r : List UInt8) (m : Nat) :
    (StdNum.sign (r.take m)).2 = [] ∨
      ((StdNum.sign (r.take m)).1 = (StdNum.sign r).1 ∧ ∃ k, (StdNum.sign (r.take m)).2 = (StdNum.sign r).2.take k) := by
  cases m with
  | zero => left; rfl
  | succ m =>
    cases r with
    | nil => left; rfl
    | cons a r =>
      rw [List.take_succ_cons]
      by_cases h1 : a = 0x2D
      · subst h1; exact .inr ⟨rfl, m, rfl⟩
      by_cases h2 : a = 0x2B
      · subst h2; exact .inr ⟨rfl, m, rfl⟩
      have e : ∀ x, StdNum.sign (a :: x) = (false, a :: x) := by
        intro x
        unfold StdNum.sign
        split
        · rename_i he; injection he with he _; exact absurd he h1
        · rename_i he; injection he with he _; exact absurd he h2
        · rfl
      rw [e, e]
      exact .inr ⟨rfl, m + 1, rfl⟩

theorem foldl_digits (ds : List UInt8) : ∀ (acc : Nat),
    ds.foldl (fun acc b => acc * 10 + (StdNum.digitVal b).getD 0) acc = acc * 10 ^ ds.length + StdNum.digitsVal 10 ds := by
  induction ds with
  | nil => intro acc; simp [StdNum.digitsVal]
  | cons b ds ih =>
    intro acc
    unfold StdNum.digitsVal
    rw [List.foldl_cons, List.foldl_cons, ih, ih, List.length_cons, Nat.pow_succ]
    rw [Nat.add_mul, Nat.zero_mul, Nat.zero_add, Nat.mul_assoc, Nat.mul_comm 10, Nat.add_assoc]

theorem digitsVal_lt (ds : List UInt8) (h : ∀ b ∈ ds, StdNum.isDigitIn 10 b = true) : StdNum.digitsVal 10 ds < 10 ^ ds.length := by
  induction ds with
  | nil => simp [StdNum.digitsVal]
  | cons b ds ih =>
    have ih := ih (fun x hx => h x (by simp [hx]))
    have hb : (StdNum.digitVal b).getD 0 < 10 := by
      have := h b (by simp)
      unfold StdNum.isDigitIn at this
      cases hd : StdNum.digitVal b with
      | none => simp
      | some d => rw [hd] at this; simpa using this
    have e : StdNum.digitsVal 10 (b :: ds) = (StdNum.digitVal b).getD 0 * 10 ^ ds.length + StdNum.digitsVal 10 ds := by
      have := foldl_digits ds ((StdNum.digitVal b).getD 0)
      rw [← this]
      unfold StdNum.digitsVal
      rw [List.foldl_cons]
      simp
    rw [e, List.length_cons, Nat.pow_succ]
    have : (StdNum.digitVal b).getD 0 * 10 ^ ds.length ≤ 9 * 10 ^ ds.length := Nat.mul_le_mul_right _ (by omega)
    omega

theorem digitsVal_take (ds : List UInt8) (h : ∀ b ∈ ds, StdNum.isDigitIn 10 b = true) (m : Nat) :
    StdNum.digitsVal 10 (ds.take m) = StdNum.digitsVal 10 ds / 10 ^ (ds.length - m) := by
  have e : StdNum.digitsVal 10 ds = StdNum.digitsVal 10 (ds.take m) * 10 ^ (ds.drop m).length + StdNum.digitsVal 10 (ds.drop m) := by
    rw [← foldl_digits (ds.drop m)]
    unfold StdNum.digitsVal
    rw [← List.foldl_append, List.take_append_drop]
  have hlt := digitsVal_lt (ds.drop m) (fun b hb => h b (List.mem_of_mem_drop hb))
  rw [List.length_drop] at e hlt
  rw [e, Nat.add_comm, Nat.add_mul_div_right _ _ (Nat.pos_of_ne_zero (by simp)), Nat.div_eq_of_lt hlt, Nat.zero_add]

theorem parse_take {t : List UInt8} {m : Nat} {neg neg' : Bool} {n n' : Nat} (h : StdNum.parse 10 t = some (neg, n))
    (h' : StdNum.parse 10 (t.take m) = some (neg', n')) : neg' = neg ∧ ∃ k, n' = n / 10 ^ k := by
  unfold StdNum.parse at h h'
  rw [dropWhile_take] at h'
  simp only [StdNum.hexPrefix_ten] at h h'
  generalize t.dropWhile StdNum.isSpace = r at h h'
  generalize m - (t.takeWhile StdNum.isSpace).length = m at h'
  rcases sign_take r m with e | ⟨e1, k, e2⟩
  · rw [e] at h'
    simp at h'
  · rw [e1, e2, takeWhile_take] at h'
    split at h
    · cases h
    split at h'
    · cases h'
    cases h; cases h'
    exact ⟨rfl, _, digitsVal_take _ (fun b hb => by
      have := List.all_takeWhile (l := (StdNum.sign r).2) (p := StdNum.isDigitIn 10)
      exact List.all_eq_true.mp this b hb) _⟩

theorem stoll_inv {t : List UInt8} {i : Int} (h : StdNum.stoll 10 t = .ok i) :
    ∃ neg n, StdNum.parse 10 t = some (neg, n) ∧ i = if neg then -(n : Int) else n := by
  unfold StdNum.stoll StdNum.signed at h
  cases hp : StdNum.parse 10 t with
  | none => rw [hp] at h; cases h
  | some x =>
    obtain ⟨neg, n⟩ := x
    rw [hp] at h
    by_cases hr : -(2 ^ (64 - 1)) ≤ (if neg then -(n : Int) else n) ∧ (if neg then -(n : Int) else n) < 2 ^ (64 - 1)
    · simp only [if_pos hr] at h
      injection h with h
      exact ⟨neg, n, rfl, h.symm⟩
    · simp only [if_neg hr] at h
      cases h

theorem stoll_cut (room : Room) {t : List UInt8} {i i' : Int} (h : StdNum.stoll 10 t = .ok i)
    (h' : StdNum.stoll 10 (cut room t) = .ok i') : Fewer i i' := by
  cases room with
  | none =>
    have : Except.ok (ε := Err) i = .ok i' := h.symm.trans h'
    cases this
    exact ⟨0, by simp⟩
  | some m =>
    obtain ⟨neg, n, hp, rfl⟩ := stoll_inv h
    obtain ⟨neg', n', hp', rfl⟩ := stoll_inv h'
    obtain ⟨rfl, k, rfl⟩ := parse_take hp hp'
    refine ⟨k, ?_⟩
    have e : ((n / 10 ^ k : Nat) : Int) = (n : Int).tdiv (10 ^ k) := by
      rw [Int.ofNat_tdiv]; simp
    cases neg'
    · simp [e]
    · simp only [if_true, Int.neg_tdiv, e]

theorem convert_cut (room : Room) (ops : FloatOps F) {t : Str} {j j' : Json F} (h : JsonParser.convert ops t = .ok j)
    (h' : convert room ops t = .ok j') : Alike Eq CutTo Fewer (CutNumber ops) j j' := by
  unfold JsonParser.convert at h
  unfold convert at h'
  rw [str_eq] at h'
  split at h
  · rename_i hf
    rw [if_pos hf] at h'
    split at h <;> cases h
    rename_i f hx
    split at h' <;> cases h'
    rename_i f' hx'
    exact ⟨f', rfl, _, _, cut_prefix room _, hx, hx'⟩
  · rename_i hf
    rw [if_neg hf] at h'
    split at h <;> cases h
    rename_i i hx
    split at h' <;> cases h'
    rename_i i' hx'
    exact ⟨i', rfl, stoll_cut room hx hx'⟩

/-! ### Words -/

theorem compareAt_true {room : Room} {s : Str} {p : Nat} {text : List UInt8} (h : compareAt room s p text = .ok true) :
    JsonParser.compareAt s p text = .ok true := by
  cases room with
  | none => rw [← compareAt_none]; exact h
  | some m =>
    unfold compareAt at h
    split at h
    · cases h
    · rename_i hp
      rw [str_eq, cut] at hp h
      injection h with h
      have h := eq_of_beq h
      have hlen := congrArg List.length h
      simp only [List.length_take, List.length_drop] at hlen hp
      unfold JsonParser.compareAt
      rw [if_neg (by omega)]
      rw [List.drop_take, List.take_take, Nat.min_eq_left (by omega)] at h
      rw [h, beq_self_eq_true]

theorem not_both {s : Str} {p : Nat} (h : JsonParser.compareAt s p (Str.valueOfBool true) = .ok true)
    (h' : JsonParser.compareAt s p (Str.valueOfBool false) = .ok true) : False := by
  unfold JsonParser.compareAt at h h'
  split at h
  · cases h
  rename_i hp
  rw [if_neg hp] at h'
  injection h with h
  injection h' with h'
  have h := eq_of_beq h
  have h' := eq_of_beq h'
  have h2 := congrArg (List.take (Str.valueOfBool true).length) h'
  rw [List.take_take, Nat.min_eq_left (by decide), h] at h2
  revert h2
  decide

/-! ### Both runs -/

theorem alike_members (ops : FloatOps F) {key : Str} {v v' : Json F}
    (hv : Alike Eq CutTo Fewer (CutNumber ops) v v') : ∀ {ms ms' : List (Str × Json F)},
    AlikeMembers Eq CutTo Fewer (CutNumber ops) ms ms' →
    AlikeMembers Eq CutTo Fewer (CutNumber ops) (Json.setMember key v ms) (Json.setMember key v' ms')
  | [], ms', h => by
    cases (show ms' = [] from h)
    exact ⟨key, v', [], rfl, rfl, hv, rfl⟩
  | (k, w) :: ms, _, h => by
    obtain ⟨k', w', ms', rfl, rfl, h2, h3⟩ := h
    unfold Json.setMember
    by_cases hk : k = key
    · rw [if_pos hk, if_pos hk]
      exact ⟨k, v', ms', rfl, rfl, hv, h3⟩
    · rw [if_neg hk, if_neg hk]
      exact ⟨k, w', _, rfl, rfl, h2, alike_members ops hv h3⟩

theorem alike_items (ops : FloatOps F) {v v' : Json F} (hv : Alike Eq CutTo Fewer (CutNumber ops) v v') :
    ∀ {js js' : List (Json F)}, AlikeItems Eq CutTo Fewer (CutNumber ops) js js' →
    AlikeItems Eq CutTo Fewer (CutNumber ops) (js ++ [v]) (js' ++ [v'])
  | [], js', h => by
    cases (show js' = [] from h)
    exact ⟨v', [], rfl, hv, rfl⟩
  | w :: js, _, h => by
    obtain ⟨w', js', rfl, h2, h3⟩ := h
    exact ⟨w', _, rfl, h2, alike_items ops hv h3⟩

/-- Both results, if they are without an error. -/
def Both (ops : FloatOps F) (x y : Res (Json F × PState)) : Prop :=
  ∀ j st j' st', x = .ok (j, st) → y = .ok (j', st') → st.err = .noError → st'.err = .noError →
    Alike Eq CutTo Fewer (CutNumber ops) j j' ∧ st' = st

theorem both_bind (ops : FloatOps F) {α : Type} (x : Res α) (f g : α → Res (Json F × PState)) (h : ∀ a, x = .ok a → Both ops (f a) (g a)) :
    Both ops (x >>= f) (x >>= g) := by
  cases x with
  | error e => intro _ _ _ _ h; cases h
  | ok a => exact h a rfl

theorem both_failLeft (ops : FloatOps F) {e : JsonError} (he : e ≠ .noError) (p : Nat) (y : Res (Json F × PState)) :
    Both ops (fail e p) y := by
  intro j st j' st' h _ h1 _
  cases h
  exact absurd h1 he

theorem both_failRight (ops : FloatOps F) {e : JsonError} (he : e ≠ .noError) (p : Nat) (x : Res (Json F × PState)) :
    Both ops x (fail e p) := by
  intro j st j' st' _ h _ h1
  cases h
  exact absurd h1 he

theorem both_ok (ops : FloatOps F) {j j' : Json F} (st : PState) (h : Alike Eq CutTo Fewer (CutNumber ops) j j') :
    Both ops (.ok (j, st)) (.ok (j', st)) := by
  intro _ _ _ _ h1 h2 _ _
  cases h1; cases h2
  exact ⟨h, rfl⟩

theorem stringEnd_kind {s : Str} {st : PState} {out : List UInt8} {r : Json F × PState} (h : JsonParser.stringEnd s st out = .ok r) :
    (∃ v, r.1 = .str v ∧ Str.ofStdString out = .ok v) ∨ r.1 = .null := by
  unfold JsonParser.stringEnd at h
  obtain ⟨c, _, h⟩ := bind_ok h
  split at h
  · obtain ⟨v, hv, h⟩ := bind_ok h
    cases h
    exact .inl ⟨v, rfl, hv⟩
  · cases h; exact .inr rfl

/-- What `ParseString` returns: nothing, or the text of the bytes written, which are ASCII if the input is plain. -/
theorem stringLoop_kind (s : Str) : ∀ (n : Nat) (st : PState) (out : List UInt8) (r : Json F × PState),
    JsonParser.stringLoop s n st out = .ok r →
    (∃ v bs, r.1 = .str v ∧ Str.ofStdString bs = .ok v ∧
      (PlainAscii s → (∀ b ∈ out, b ≠ 0 ∧ b ≤ 0x7F) → ∀ b ∈ bs, b ≠ 0 ∧ b ≤ 0x7F)) ∨ r.1 = .null
  | 0, _, _, _, h => nomatch h
  | n + 1, st, out, r, h => by
    have ih := stringLoop_kind s n
    have fin : ∀ {st : PState}, JsonParser.stringEnd s st out = .ok r → (∃ v bs, r.1 = .str v ∧ Str.ofStdString bs = .ok v ∧
        (PlainAscii s → (∀ b ∈ out, b ≠ 0 ∧ b ≤ 0x7F) → ∀ b ∈ bs, b ≠ 0 ∧ b ≤ 0x7F)) ∨ r.1 = .null := by
      intro st h
      rcases stringEnd_kind h with ⟨v, h1, h2⟩ | h
      · exact .inl ⟨v, out, h1, h2, fun _ h => h⟩
      · exact .inr h
    rw [JsonParser.stringLoop] at h
    split at h
    · obtain ⟨c, hc, h⟩ := bind_ok h
      have hmem : c ∈ s := by
        unfold Str.index vecGet at hc
        cases hg : s[st.pos]? with
        | none => rw [hg] at hc; cases hc
        | some a => rw [hg] at hc; cases hc; exact List.mem_of_getElem? hg
      split at h
      · exact fin h
      · split at h
        · rename_i hb
          have hno : ¬ PlainAscii s := by
            intro hp
            obtain ⟨b, h1, _, _, h2⟩ := hp c hmem
            rw [hb] at h1
            injection h1 with h1
            injection h1 with h1
            exact h2 h1.symm
          split at h
          · cases h; exact .inr rfl
          · obtain ⟨d, _, h⟩ := bind_ok h
            obtain ⟨x, _, h⟩ := bind_ok h
            cases x with
            | ok x =>
              rcases ih _ _ _ h with ⟨v, bs, h1, h2, _⟩ | h
              · exact .inl ⟨v, bs, h1, h2, fun hp => absurd hp hno⟩
              · exact .inr h
            | error e => cases h; exact .inr rfl
        · rcases ih _ _ _ h with ⟨v, bs, h1, h2, h3⟩ | h
          · refine .inl ⟨v, bs, h1, h2, fun hp ho => h3 hp ?_⟩
            clear h3
            intro b hb
            rcases List.mem_append.mp hb with hb | hb
            · exact ho b hb
            · obtain ⟨b', h1, h2, h3, _⟩ := hp c hmem
              clear ih
              subst h1
              have := (List.takeWhile_sublist _).subset hb
              rw [List.mem_singleton] at this
              subst this
              exact ⟨h2, h3⟩
          · exact .inr h
    · exact fin h

theorem both_string (ops : FloatOps F) (L : Limits) (s : Str) (st : PState) :
    Both ops (JsonParser.parseString s st) (parseString L s st) := by
  intro j st1 j' st2 h h' _ _
  unfold JsonParser.parseString at h
  unfold parseString at h'
  rw [← state_nil (L.string st.pos), recut_stringLoop _ s _ _ _ _ h] at h'
  rcases stringLoop_kind s _ _ _ _ h with ⟨v, _, rfl, _⟩ | rfl
  · obtain ⟨v', hv, h'⟩ := bind_ok h'
    cases h'
    refine ⟨⟨v', rfl, ?_⟩, rfl⟩
    obtain ⟨_, h2⟩ := ofStdString_inv hv
    have hc := cut_prefix (L.string st.pos) (Str.str v)
    unfold CutTo
    rcases h2 with h2 | ⟨r, h2⟩
    · rw [← h2]; exact hc
    · exact List.IsPrefix.trans ⟨0 :: r, h2.symm⟩ hc
  · cases h'; exact ⟨rfl, rfl⟩

theorem both_boolean (ops : FloatOps F) (L : Limits) (s : Str) (st : PState) :
    Both ops (JsonParser.parseBoolean s st) (parseBoolean L s st) := by
  intro j st1 j' st2 h h' h1 h1'
  obtain ⟨a, ha, h⟩ := bind_ok h
  obtain ⟨b, hb, h'⟩ := bind_ok h'
  cases b with
  | true =>
    rw [compareAt_true hb] at ha
    cases ha
    cases h; cases h'; exact ⟨rfl, rfl⟩
  | false =>
    obtain ⟨b, hb, h'⟩ := bind_ok h'
    cases b with
    | true =>
      have hb := compareAt_true hb
      cases a with
      | true => exact (not_both ha hb).elim
      | false =>
        obtain ⟨a, ha, h⟩ := bind_ok h
        rw [hb] at ha
        cases ha
        cases h; cases h'; exact ⟨rfl, rfl⟩
    | false => cases h'; exact nomatch h1'

theorem both_null (ops : FloatOps F) (L : Limits) (s : Str) (st : PState) :
    Both ops (JsonParser.parseNull s st) (parseNull L s st) := by
  intro j st1 j' st2 h h' h1 h1'
  obtain ⟨a, ha, h⟩ := bind_ok h
  obtain ⟨b, hb, h'⟩ := bind_ok h'
  cases b with
  | true =>
    rw [compareAt_true hb] at ha
    cases ha
    cases h; cases h'; exact ⟨rfl, rfl⟩
  | false => cases h'; exact nomatch h1'

theorem both_number (ops : FloatOps F) (L : Limits) (s : Str) (st : PState) :
    Both ops (JsonParser.parseNumber ops s st) (parseNumber L ops s st) := by
  refine both_bind ops _ _ _ fun len _ => both_bind ops _ _ _ fun number _ => ?_
  by_cases ht : L.numberThrows st.pos = true
  · rw [if_pos ht]
    exact both_failRight ops (e := .invalidNumber) (by decide) _ _
  · rw [if_neg ht]
    cases h : JsonParser.convert ops number with
    | error e => exact both_failLeft ops (Caitlyn.convert_err ops h) _ _
    | ok j =>
      cases h' : convert (L.number st.pos) ops number with
      | error e => exact both_failRight ops (convert_err _ ops h') _ _
      | ok j' => exact both_ok ops _ (convert_cut _ ops h h')

theorem both_all (L : Limits) (ops : FloatOps F) (s : Str) : ∀ (n : Nat),
    (∀ st, Both ops (JsonParser.parseValue ops s n st) (parseValue L ops s n st)) ∧
    (∀ st ms ms', AlikeMembers Eq CutTo Fewer (CutNumber ops) ms ms' →
      Both ops (JsonParser.objectLoop ops s n st ms) (objectLoop L ops s n st ms')) ∧
    (∀ st js js', AlikeItems Eq CutTo Fewer (CutNumber ops) js js' →
      Both ops (JsonParser.arrayLoop ops s n st js) (arrayLoop L ops s n st js'))
  | 0 => ⟨(fun _ _ _ _ _ h => nomatch h), (fun _ _ _ _ _ _ _ _ h => nomatch h), (fun _ _ _ _ _ _ _ _ h => nomatch h)⟩
  | n + 1 => by
    obtain ⟨h1, h2, h3⟩ := both_all L ops s n
    obtain ⟨k1, k2, k3⟩ := keeps_all L ops s n
    obtain ⟨e1, e2, e3⟩ := all_none ops s n
    obtain ⟨u1, u2, u3⟩ := keeps_all {} ops s n
    rw [e1] at u1; rw [e2] at u2; rw [e3] at u3
    -- after the value of a member or an item
    have next : ∀ (st : PState) (f g : Json F × PState → Res (Json F × PState)),
        (∀ v st, Keeps st (f (v, st))) → (∀ v st, Keeps st (g (v, st))) →
        (∀ v v' st, Alike Eq CutTo Fewer (CutNumber ops) v v' → Both ops (f (v, st)) (g (v', st))) →
        Both ops (JsonParser.parseValue ops s n st >>= f) (parseValue L ops s n st >>= g) := by
      intro st f g hf hg hfg j st1 j' st2 h h' he he'
      obtain ⟨⟨v, sv⟩, hv, h⟩ := bind_ok h
      obtain ⟨⟨v', sv'⟩, hv', h'⟩ := bind_ok h'
      obtain ⟨a, rfl⟩ := h1 st v sv v' sv' hv hv' (hf _ _ _ _ h he) (hg _ _ _ _ h' he')
      exact hfg v v' sv' a _ _ _ _ h h' he he'
    have kAfter : ∀ (st : PState) (close : Chr) (done : Nat → Json F) (more : Nat → Res (Json F × PState)),
        (∀ p, Keeps st (more p)) → Keeps st (do
          match ← afterValue s close st.pos with
          | .closed pos => return (done pos, { st with pos := pos })
          | .more pos => more pos
          | .error e pos => fail e pos) := by
      intro st close done more hm
      refine keeps_bind _ _ _ fun a ha => ?_
      cases a with
      | closed p => exact keeps_ok st _ _
      | more p => exact hm p
      | error e p => exact keeps_fail st (afterValue_err ha) _
    refine ⟨?_, ?_, ?_⟩
    · intro st
      simp only [parseValue, JsonParser.parseValue]
      refine both_bind ops _ _ _ fun p _ => ?_
      split
      · exact both_ok ops _ rfl
      refine both_bind ops _ _ _ fun c _ => ?_
      split
      · exact both_string ops L s _
      split
      · exact both_bind ops _ _ _ fun q _ => h2 _ _ _ rfl
      split
      · exact both_bind ops _ _ _ fun q _ => h3 _ _ _ rfl
      split
      · exact both_boolean ops L s _
      split
      · exact both_null ops L s _
      refine both_bind ops _ _ _ fun cp _ => ?_
      split
      · exact both_number ops L s _
      · exact both_failLeft ops (by decide) _ _
    · intro st ms ms' hms
      simp only [objectLoop, JsonParser.objectLoop]
      split
      · refine both_bind ops _ _ _ fun p _ => both_bind ops _ _ _ fun c _ => ?_
        split
        · exact both_ok ops _ ⟨ms', rfl, hms⟩
        split
        · refine both_bind ops _ _ _ fun k hk => ?_
          cases k with
          | error e => exact both_failLeft ops (memberKey_err hk) _ _
          | ok k =>
            obtain ⟨k, p⟩ := k
            dsimp only
            refine next _ _ _ ?_ ?_ ?_
            · intro v st
              exact kAfter st rbrace (fun _ => _) (fun p => JsonParser.objectLoop ops s n { st with pos := p } _) fun p => u2 _ _
            · intro v st
              exact kAfter st rbrace (fun _ => _) (fun p => objectLoop L ops s n { st with pos := p } _) fun p => k2 _ _
            · intro v v' st hv
              refine both_bind ops _ _ _ fun a ha => ?_
              cases a with
              | closed p => exact both_ok ops _ ⟨_, rfl, alike_members ops hv hms⟩
              | more p => exact h2 _ _ _ (alike_members ops hv hms)
              | error e p => exact both_failLeft ops (afterValue_err ha) _ _
        · exact both_failLeft ops (by decide) _ _
      · exact both_failLeft ops (by decide) _ _
    · intro st js js' hjs
      simp only [arrayLoop, JsonParser.arrayLoop]
      split
      · refine both_bind ops _ _ _ fun p _ => both_bind ops _ _ _ fun c _ => ?_
        split
        · exact both_ok ops _ ⟨js', rfl, hjs⟩
        · refine next _ _ _ ?_ ?_ ?_
          · intro v st
            exact kAfter st rbracket (fun _ => _) (fun p => JsonParser.arrayLoop ops s n { st with pos := p } _) fun p => u3 _ _
          · intro v st
            exact kAfter st rbracket (fun _ => _) (fun p => arrayLoop L ops s n { st with pos := p } _) fun p => k3 _ _
          · intro v v' st hv
            refine both_bind ops _ _ _ fun a ha => ?_
            cases a with
            | closed p => exact both_ok ops _ ⟨_, rfl, alike_items ops hv hjs⟩
            | more p => exact h3 _ _ _ (alike_items ops hv hjs)
            | error e p => exact both_failLeft ops (afterValue_err ha) _ _
      · exact both_failLeft ops (by decide) _ _

theorem both_document (L : Limits) (ops : FloatOps F) {s : Str} {j j' : Json F} (h : JsonParser.document ops s = .ok (j, .noError))
    (h' : document L ops s = .ok (j', .noError)) : Alike Eq CutTo Fewer (CutNumber ops) j j' := by
  obtain ⟨⟨v, st⟩, hv, h⟩ := bind_ok h
  obtain ⟨⟨v', st'⟩, hv', h'⟩ := bind_ok h'
  have key : Both ops (JsonParser.parse ops s) (parse L ops s) := by
    unfold JsonParser.parse parse
    split
    · exact both_failLeft ops (by decide) _ _
    · refine both_bind ops _ _ _ fun a _ => both_bind ops _ _ _ fun b _ => both_bind ops _ _ _ fun c _ => ?_
      split
      · exact both_failLeft ops (by decide) _ _
      · refine both_bind ops _ _ _ fun d _ => ?_
        split
        · exact both_failLeft ops (by decide) _ _
        · exact (both_all L ops s _).1 _
  simp only at h h'
  split at h
  · rename_i hne; injection h with h; injection h with _ h; exact absurd h hne
  split at h'
  · rename_i hne; injection h' with h'; injection h' with _ h'; exact absurd h' hne
  rename_i hx hx'
  cases h; cases h'
  exact (key _ _ _ _ hv hv' (Classical.not_not.mp hx) (Classical.not_not.mp hx')).1

/-! ### Every text cut -/

/-- Nothing is room for, or the input is plain. -/
def Clean (n : Nat) (s : Str) : Prop := n = 0 ∨ PlainAscii s

theorem mapMembers_set (g : Str → Str) (key : Str) (v : Json F) : ∀ (ms : List (Str × Json F)),
    mapMembers g (Json.setMember key v ms) = Json.setMember key (mapTexts g v) (mapMembers g ms)
  | [] => by simp [Json.setMember, mapMembers]
  | (k, w) :: ms => by
    have ih := mapMembers_set g key v ms
    unfold Json.setMember
    by_cases hk : k = key
    · simp [hk, mapMembers]
    · simp [hk, mapMembers, ih]

theorem mapItems_append (g : Str → Str) (v : Json F) : ∀ (js : List (Json F)),
    mapItems g (js ++ [v]) = mapItems g js ++ [mapTexts g v]
  | [] => by simp [mapItems]
  | w :: js => by simp [mapItems, mapItems_append g v js]

/-- The second result is the first with its texts cut. -/
def Cuts (n : Nat) (x y : Res (Json F × PState)) : Prop := ∀ j st, x = .ok (j, st) → y = .ok (mapTexts (List.take n) j, st)

theorem cuts_bind {n : Nat} {α : Type} (x : Res α) (f g : α → Res (Json F × PState)) (h : ∀ a, Cuts n (f a) (g a)) :
    Cuts n (x >>= f) (x >>= g) := by
  cases x with
  | error e => intro _ _ h; cases h
  | ok a => exact h a

theorem cuts_fail (n : Nat) (e : JsonError) (p : Nat) : Cuts (F := F) n (fail e p) (fail e p) := by
  intro j st h; cases h; simp [fail, mapTexts]

theorem cuts_same (n : Nat) {x : Res (Json F × PState)} (h : ∀ j st, x = .ok (j, st) → mapTexts (List.take n) j = j) : Cuts n x x := by
  intro j st hx; rw [h j st hx]; exact hx

theorem cuts_string {n : Nat} {s : Str} (hc : Clean n s) (st : PState) :
    Cuts (F := F) n (JsonParser.parseString s st) (parseString { string := fun _ => some n } s st) := by
  intro j st1 h
  unfold JsonParser.parseString at h
  unfold parseString
  rw [← state_nil (some n), recut_stringLoop _ s _ _ _ _ h]
  rcases stringLoop_kind s _ _ _ _ h with ⟨v, bs, h1, h2, h3⟩ | h1
  · simp only at h1
    subst h1
    have key : Str.ofStdString ((Str.str v).take n) = .ok (v.take n) := by
      rcases hc with rfl | hp
      · rfl
      · have hb := h3 hp (by simp)
        have e : bs = Str.str v := by
          rcases (ofStdString_inv h2).2 with e | ⟨r, e⟩
          · exact e
          · exact absurd rfl (hb 0 (by rw [e]; simp)).1
        have e2 : v = bs.map Chr.ofByte := by
          rw [Str.ofStdString_ascii _ hb] at h2
          injection h2 with h2
          exact h2.symm
        rw [← e, Str.ofStdString_ascii _ fun b hx => hb b (List.mem_of_mem_take hx), e2, List.map_take]
    rw [mapTexts]
    show (Str.ofStdString ((Str.str v).take n) >>= fun v' => (.ok (.str v', st1) : Res (Json F × PState))) = _
    rw [key]; rfl
  · simp only at h1
    subst h1
    simp [recut, mapTexts]

theorem cuts_boolean (n : Nat) (s : Str) (st : PState) :
    Cuts (F := F) n (JsonParser.parseBoolean s st) (parseBoolean { string := fun _ => some n } s st) := by
  simp only [JsonParser.parseBoolean, parseBoolean, compareAt_none]
  refine cuts_bind _ _ _ fun a => ?_
  split
  · intro _ _ h; cases h; simp [mapTexts, pure, Except.pure]
  · refine cuts_bind _ _ _ fun a => ?_
    split
    · intro _ _ h; cases h; simp [mapTexts, pure, Except.pure]
    · exact cuts_fail n _ _

theorem cuts_null (n : Nat) (s : Str) (st : PState) :
    Cuts (F := F) n (JsonParser.parseNull s st) (parseNull { string := fun _ => some n } s st) := by
  simp only [JsonParser.parseNull, parseNull, compareAt_none]
  refine cuts_bind _ _ _ fun a => ?_
  split
  · intro _ _ h; cases h; simp [mapTexts, pure, Except.pure]
  · exact cuts_fail n _ _

theorem convert_map (ops : FloatOps F) {t : Str} {j : Json F} (g : Str → Str) (h : JsonParser.convert ops t = .ok j) :
    mapTexts g j = j := by
  unfold JsonParser.convert at h
  split at h <;> split at h <;> cases h <;> simp [mapTexts]

theorem cuts_number (n : Nat) (ops : FloatOps F) (s : Str) (st : PState) :
    Cuts n (JsonParser.parseNumber ops s st) (parseNumber { string := fun _ => some n } ops s st) := by
  refine cuts_bind _ _ _ fun len => cuts_bind _ _ _ fun number => ?_
  simp only [Bool.false_eq_true, if_false, convert_none]
  cases h : JsonParser.convert ops number with
  | error e => exact cuts_fail n _ _
  | ok j =>
    intro j' st' h'
    cases h'
    rw [convert_map ops _ h]; rfl

theorem cuts_all {n : Nat} {s : Str} (hc : Clean n s) (ops : FloatOps F) : ∀ (m : Nat),
    (∀ st, Cuts n (JsonParser.parseValue ops s m st) (parseValue { string := fun _ => some n } ops s m st)) ∧
    (∀ st ms, Cuts n (JsonParser.objectLoop ops s m st ms) (objectLoop { string := fun _ => some n } ops s m st (mapMembers (List.take n) ms))) ∧
    (∀ st js, Cuts n (JsonParser.arrayLoop ops s m st js) (arrayLoop { string := fun _ => some n } ops s m st (mapItems (List.take n) js)))
  | 0 => ⟨(fun _ _ _ h => nomatch h), (fun _ _ _ _ h => nomatch h), (fun _ _ _ _ h => nomatch h)⟩
  | m + 1 => by
    obtain ⟨h1, h2, h3⟩ := cuts_all hc ops m
    have next : ∀ (st : PState) (f g : Json F × PState → Res (Json F × PState)),
        (∀ v st, Cuts n (f (v, st)) (g (mapTexts (List.take n) v, st))) →
        Cuts n (JsonParser.parseValue ops s m st >>= f)
          (parseValue { string := fun _ => some n } ops s m st >>= g) := by
      intro st f g hfg j st1 h
      obtain ⟨⟨v, sv⟩, hv, h⟩ := bind_ok h
      rw [h1 st v sv hv, ok_bind]
      exact hfg v sv j st1 h
    refine ⟨?_, ?_, ?_⟩
    · intro st
      simp only [parseValue, JsonParser.parseValue]
      refine cuts_bind _ _ _ fun p => ?_
      split
      · intro _ _ h; cases h; simp [mapTexts, pure, Except.pure]
      refine cuts_bind _ _ _ fun c => ?_
      split
      · exact cuts_string hc _
      split
      · refine cuts_bind _ _ _ fun q => ?_
        have := h2 { st with pos := q } []
        rwa [mapMembers] at this
      split
      · refine cuts_bind _ _ _ fun q => ?_
        have := h3 { st with pos := q } []
        rwa [mapItems] at this
      split
      · exact cuts_boolean n s _
      split
      · exact cuts_null n s _
      refine cuts_bind _ _ _ fun cp => ?_
      split
      · exact cuts_number n ops s _
      · exact cuts_fail n _ _
    · intro st ms
      simp only [objectLoop, JsonParser.objectLoop]
      split
      · refine cuts_bind _ _ _ fun p => cuts_bind _ _ _ fun c => ?_
        split
        · intro _ _ h; cases h; simp [mapTexts, pure, Except.pure]
        split
        · refine cuts_bind _ _ _ fun k => ?_
          cases k with
          | error e => exact cuts_fail n _ _
          | ok k =>
            obtain ⟨k, p⟩ := k
            dsimp only
            refine next _ _ _ ?_
            intro v st
            refine cuts_bind _ _ _ fun a => ?_
            cases a with
            | closed p => intro _ _ h; cases h; simp [mapTexts, mapMembers_set, pure, Except.pure]
            | more p =>
              have := h2 { st with pos := p } (Json.setMember k v ms)
              rwa [mapMembers_set] at this
            | error e p => exact cuts_fail n _ _
        · exact cuts_fail n _ _
      · exact cuts_fail n _ _
    · intro st js
      simp only [arrayLoop, JsonParser.arrayLoop]
      split
      · refine cuts_bind _ _ _ fun p => cuts_bind _ _ _ fun c => ?_
        split
        · intro _ _ h; cases h; simp [mapTexts, pure, Except.pure]
        · refine next _ _ _ ?_
          intro v st
          refine cuts_bind _ _ _ fun a => ?_
          cases a with
          | closed p => intro _ _ h; cases h; simp [mapTexts, mapItems_append, pure, Except.pure]
          | more p =>
            have := h3 { st with pos := p } (js ++ [v])
            rwa [mapItems_append] at this
          | error e p => exact cuts_fail n _ _
      · exact cuts_fail n _ _

theorem cuts_document {n : Nat} {s : Str} (hc : Clean n s) (ops : FloatOps F) {j : Json F} {e : JsonError}
    (h : JsonParser.document ops s = .ok (j, e)) :
    document { string := fun _ => some n } ops s = .ok (mapTexts (List.take n) j, e) := by
  have key : Cuts n (JsonParser.parse ops s) (parse { string := fun _ => some n } ops s) := by
    unfold JsonParser.parse parse
    split
    · exact cuts_fail n _ _
    · refine cuts_bind _ _ _ fun a => cuts_bind _ _ _ fun b => cuts_bind _ _ _ fun c => ?_
      split
      · exact cuts_fail n _ _
      · refine cuts_bind _ _ _ fun d => ?_
        split
        · exact cuts_fail n _ _
        · exact (cuts_all hc ops _).1 _
  obtain ⟨⟨v, st⟩, hv, h⟩ := bind_ok h
  unfold document
  rw [key v st hv, ok_bind]
  simp only at h ⊢
  split at h
  · rename_i hne
    rw [if_pos hne]; cases h; simp [mapTexts, pure, Except.pure]
  · rename_i hne
    rw [if_neg hne]; cases h; rfl

end StreamMem
end Caitlyn
