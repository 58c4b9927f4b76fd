import Verif.Spec.StreamMem
import Verif.Proofs.JsonRead

/-! # Helper lemmas: texts built in streams that cannot grow -/

namespace Caitlyn
namespace StreamMem
open Caitlyn.Spec
variable {F : Type}

/-- The stream after some bytes have been inserted. -/
def state : Room → List UInt8 → Out
  | none, bs => ⟨bs, false⟩
  | some n, bs => if bs.length ≤ n then ⟨bs, false⟩ else ⟨bs.take n, true⟩

theorem state_text (room : Room) (bs : List UInt8) : (state room bs).text = cut room bs := by
  cases room with
  | none => rfl
  | some n =>
    by_cases h : bs.length ≤ n
    · simp [state, cut, h, List.take_of_length_le]
    · simp [state, cut, h]

theorem state_nil (room : Room) : state room [] = {} := by
  cases room <;> simp [state]

theorem insert_state (room : Room) (a b : List UInt8) : (state room a).insert room b = state room (a ++ b) := by
  cases room with
  | none => rfl
  | some n =>
    by_cases h : a.length ≤ n
    · by_cases h2 : a.length + b.length ≤ n
      · simp [state, h, Out.insert, h2]
      · simp [state, h, Out.insert, h2]
    · have h2 : ¬ a.length + b.length ≤ n := by omega
      simp only [state, h, Out.insert, List.length_append, h2, if_false, if_true]
      rw [List.take_append_of_le_length (by omega)]

theorem foldl_insert (room : Room) : ∀ (ps : List (List UInt8)) (a : List UInt8),
    ps.foldl (Out.insert room) (state room a) = state room (a ++ ps.flatten)
  | [], a => by simp
  | p :: ps, a => by rw [List.foldl_cons, insert_state, foldl_insert room ps, List.flatten_cons, List.append_assoc]

theorem streamed_eq (room : Room) (ps : List (List UInt8)) : streamed room ps = cut room ps.flatten := by
  unfold streamed
  rw [← state_nil room, foldl_insert, state_text, List.nil_append]

theorem str_eq (room : Room) (s : Str) : str room s = cut room (Str.str s) := by
  unfold str Str.str
  rw [streamed_eq, List.flatMap_def]

theorem cut_prefix (room : Room) (bs : List UInt8) : cut room bs <+: bs := by
  cases room with
  | none => exact List.prefix_refl _
  | some n => exact List.take_prefix n bs

theorem cut_of_prefix {p bs : List UInt8} (h : p <+: bs) : cut (some p.length) bs = p := by
  obtain ⟨t, rfl⟩ := h
  simp [cut]

theorem cut_atLeast {room : Room} {n : Nat} (h : atLeast n room) {bs : List UInt8} (hb : bs.length ≤ n) : cut room bs = bs := by
  cases room with
  | none => rfl
  | some m => exact List.take_of_length_le (by have := h m rfl; omega)

theorem appended_eq (room : Room) : ∀ (args : List (Room × Str)) (a : List UInt8),
    args.foldl (append room) (state room a) = state room (a ++ (args.map fun x => cut x.1 (Str.str x.2)).flatten)
  | [], a => by simp
  | x :: args, a => by
    rw [List.foldl_cons, append, insert_state, appended_eq room args, List.map_cons, List.flatten_cons, List.append_assoc, str_eq]

/-! ### Printing -/

theorem str_append (a b : Str) : Str.str (a ++ b) = Str.str a ++ Str.str b := List.flatMap_append

theorem str_whenPretty (pretty : Bool) (s : Str) : Str.str (Json.whenPretty pretty s) = whenPretty pretty (Str.str s) := by
  cases pretty <;> rfl

theorem whole_pretty {A : Room → Prop} {n : Nat} (hA : ∀ room, A room → atLeast n room) {pretty : Bool} {s : Str} {t : List UInt8}
    (h : WhenPretty A pretty s t) (hn : (whenPretty pretty (Str.str s)).length ≤ n) : t = whenPretty pretty (Str.str s) := by
  cases pretty with
  | false => exact h
  | true =>
    obtain ⟨room, ha, rfl⟩ := h
    rw [str_eq]
    exact cut_atLeast (hA room ha) hn

mutual
theorem whole {A : Room → Prop} {n : Nat} (hA : ∀ room, A room → atLeast n room) (ops : FloatOps F) (pretty : Bool) (base : Nat) :
    ∀ (j : Json F) (indent : Nat) (t : List UInt8), Writes A ops pretty base indent j t →
      (Str.str (Json.output ops pretty base indent j)).length ≤ n → t = Str.str (Json.output ops pretty base indent j)
  | .obj [], indent, t, h, hn => by
    obtain ⟨e, h1, rfl⟩ := h
    simp only [Json.output, str_append, str_whenPretty, List.length_append] at hn ⊢
    rw [whole_pretty hA h1 (by omega)]
    simp [Str.str, Chr.printed, Chr.data]
  | .obj (m :: ms), indent, t, h, hn => by
    obtain ⟨a, b, e, h1, h2, h3, rfl⟩ := h
    simp only [Json.output, str_append, str_whenPretty, List.length_append] at hn ⊢
    rw [whole_pretty hA h3 (by omega), wholeMember hA ops pretty base m indent a h1 (by omega),
      wholeMembers hA ops pretty base ms indent b h2 (by omega)]
    simp [Str.str, Chr.printed, Chr.data]
  | .arr [], indent, t, h, hn => by
    obtain ⟨e, h1, rfl⟩ := h
    simp only [Json.output, str_append, str_whenPretty, List.length_append] at hn ⊢
    rw [whole_pretty hA h1 (by omega)]
    simp [Str.str, Chr.printed, Chr.data]
  | .arr (j :: js), indent, t, h, hn => by
    obtain ⟨i, a, b, e, h0, h1, h2, h3, rfl⟩ := h
    simp only [Json.output, str_append, str_whenPretty, List.length_append] at hn ⊢
    rw [whole_pretty hA h3 (by omega), whole_pretty hA h0 (by omega), whole hA ops pretty base j _ a h1 (by omega),
      wholeItems hA ops pretty base js indent b h2 (by omega)]
    simp [Str.str, Chr.printed, Chr.data]
  | .str s, indent, t, h, hn => by
    obtain ⟨room, ha, rfl⟩ := h
    simp only [Json.output, str_append, List.length_append] at hn ⊢
    rw [str_eq, cut_atLeast (hA room ha) (by omega)]
    simp [Str.str, Chr.printed, Chr.data]
  | .float f, _, _, h, _ => h
  | .int i, _, _, h, _ => h
  | .bool b, _, _, h, _ => h
  | .null, _, _, h, _ => h

theorem wholeMember {A : Room → Prop} {n : Nat} (hA : ∀ room, A room → atLeast n room) (ops : FloatOps F) (pretty : Bool)
    (base : Nat) : ∀ (m : Str × Json F) (indent : Nat) (t : List UInt8), WritesMember A ops pretty base indent m t →
      (Str.str (Json.outputMember ops pretty base indent m)).length ≤ n → t = Str.str (Json.outputMember ops pretty base indent m)
  | (k, v), indent, t, h, hn => by
    obtain ⟨i, room, a, ha, h1, h2, rfl⟩ := h
    simp only [Json.outputMember, str_append, str_whenPretty, List.length_append] at hn ⊢
    rw [whole_pretty hA h1 (by omega), whole hA ops pretty base v _ a h2 (by omega), str_eq, cut_atLeast (hA room ha) (by omega)]
    simp [Str.str, Chr.printed, Chr.data]

theorem wholeMembers {A : Room → Prop} {n : Nat} (hA : ∀ room, A room → atLeast n room) (ops : FloatOps F) (pretty : Bool)
    (base : Nat) : ∀ (ms : List (Str × Json F)) (indent : Nat) (t : List UInt8), WritesMembers A ops pretty base indent ms t →
      (Str.str (Json.outputMembers ops pretty base indent ms)).length ≤ n → t = Str.str (Json.outputMembers ops pretty base indent ms)
  | [], _, _, h, _ => h
  | m :: ms, indent, t, h, hn => by
    obtain ⟨a, b, h1, h2, rfl⟩ := h
    simp only [Json.outputMembers, str_append, str_whenPretty, List.length_append] at hn ⊢
    rw [wholeMember hA ops pretty base m indent a h1 (by omega), wholeMembers hA ops pretty base ms indent b h2 (by omega)]
    simp [Str.str, Chr.printed, Chr.data]

theorem wholeItems {A : Room → Prop} {n : Nat} (hA : ∀ room, A room → atLeast n room) (ops : FloatOps F) (pretty : Bool)
    (base : Nat) : ∀ (js : List (Json F)) (indent : Nat) (t : List UInt8), WritesItems A ops pretty base indent js t →
      (Str.str (Json.outputItems ops pretty base indent js)).length ≤ n → t = Str.str (Json.outputItems ops pretty base indent js)
  | [], _, _, h, _ => h
  | j :: js, indent, t, h, hn => by
    obtain ⟨i, a, b, h0, h1, h2, rfl⟩ := h
    simp only [Json.outputItems, str_append, str_whenPretty, List.length_append] at hn ⊢
    rw [whole_pretty hA h0 (by omega), whole hA ops pretty base j _ a h1 (by omega),
      wholeItems hA ops pretty base js indent b h2 (by omega)]
    simp [Str.str, Chr.printed, Chr.data]
end

theorem pretty_any {A : Room → Prop} (hn : A none) (pretty : Bool) (s : Str) :
    WhenPretty A pretty s (whenPretty pretty (Str.str s)) := by
  cases pretty with
  | false => rfl
  | true => exact ⟨none, hn, (str_eq none s).symm⟩

mutual
theorem writes_alike {A : Room → Prop} (hA : ∀ room, A room) (ops : FloatOps F) (pretty : Bool) (base : Nat) :
    ∀ (j j' : Json F) (indent : Nat), Alike CutTo CutTo Eq Eq j j' →
      Writes A ops pretty base indent j (Str.str (Json.output ops pretty base indent j'))
  | .obj [], _, indent, h => by
    obtain ⟨ms', rfl, h⟩ := h
    cases (show ms' = [] from h)
    exact ⟨_, pretty_any (hA _) pretty _, by simp only [Json.output, str_append, str_whenPretty]; simp [Str.str, Chr.printed, Chr.data]⟩
  | .obj ((k, v) :: ms), _, indent, h => by
    obtain ⟨l, rfl, h⟩ := h
    obtain ⟨k', v', ms', rfl, h1, h2, h3⟩ := h
    refine ⟨_, _, _, writes_alikeMember hA ops pretty base k v k' v' indent h1 h2, writes_alikeMembers hA ops pretty base ms ms' indent h3,
      pretty_any (hA _) pretty _, ?_⟩
    simp only [Json.output, str_append, str_whenPretty]; simp [Str.str, Chr.printed, Chr.data]
  | .arr [], _, indent, h => by
    obtain ⟨ms', rfl, h⟩ := h
    cases (show ms' = [] from h)
    exact ⟨_, pretty_any (hA _) pretty _, by simp only [Json.output, str_append, str_whenPretty]; simp [Str.str, Chr.printed, Chr.data]⟩
  | .arr (v :: js), _, indent, h => by
    obtain ⟨l, rfl, h⟩ := h
    obtain ⟨v', js', rfl, h2, h3⟩ := h
    refine ⟨_, _, _, _, pretty_any (hA _) pretty _, writes_alike hA ops pretty base v v' _ h2,
      writes_alikeItems hA ops pretty base js js' indent h3, pretty_any (hA _) pretty _, ?_⟩
    simp only [Json.output, str_append, str_whenPretty]; simp [Str.str, Chr.printed, Chr.data]
  | .str s, _, indent, h => by
    obtain ⟨p, rfl, h⟩ := h
    refine ⟨some (Str.str p).length, hA _, ?_⟩
    rw [str_eq, cut_of_prefix h]
    simp only [Json.output, str_append]; simp [Str.str, Chr.printed, Chr.data]
  | .float f, _, _, h => by obtain ⟨_, rfl, rfl⟩ := h; rfl
  | .int i, _, _, h => by obtain ⟨_, rfl, rfl⟩ := h; rfl
  | .bool b, j', _, h => by cases (show j' = .bool b from h); rfl
  | .null, j', _, h => by cases (show j' = .null from h); rfl

theorem writes_alikeMember {A : Room → Prop} (hA : ∀ room, A room) (ops : FloatOps F) (pretty : Bool) (base : Nat) :
    ∀ (k : Str) (v : Json F) (k' : Str) (v' : Json F) (indent : Nat), CutTo k k' → Alike CutTo CutTo Eq Eq v v' →
      WritesMember A ops pretty base indent (k, v) (Str.str (Json.outputMember ops pretty base indent (k', v')))
  | k, v, k', v', indent, h1, h2 => by
    refine ⟨_, some (Str.str k').length, _, hA _, pretty_any (hA _) pretty _, writes_alike hA ops pretty base v v' _ h2, ?_⟩
    rw [str_eq, cut_of_prefix h1]
    simp only [Json.outputMember, str_append, str_whenPretty]; simp [Str.str, Chr.printed, Chr.data]

theorem writes_alikeMembers {A : Room → Prop} (hA : ∀ room, A room) (ops : FloatOps F) (pretty : Bool) (base : Nat) :
    ∀ (ms ms' : List (Str × Json F)) (indent : Nat), AlikeMembers CutTo CutTo Eq Eq ms ms' →
      WritesMembers A ops pretty base indent ms (Str.str (Json.outputMembers ops pretty base indent ms'))
  | [], ms', _, h => by cases (show ms' = [] from h); rfl
  | (k, v) :: ms, _, indent, h => by
    obtain ⟨k', v', ms', rfl, h1, h2, h3⟩ := h
    refine ⟨_, _, writes_alikeMember hA ops pretty base k v k' v' indent h1 h2, writes_alikeMembers hA ops pretty base ms ms' indent h3, ?_⟩
    simp only [Json.outputMembers, str_append, str_whenPretty]; simp [Str.str, Chr.printed, Chr.data]

theorem writes_alikeItems {A : Room → Prop} (hA : ∀ room, A room) (ops : FloatOps F) (pretty : Bool) (base : Nat) :
    ∀ (js js' : List (Json F)) (indent : Nat), AlikeItems CutTo CutTo Eq Eq js js' →
      WritesItems A ops pretty base indent js (Str.str (Json.outputItems ops pretty base indent js'))
  | [], js', _, h => by cases (show js' = [] from h); rfl
  | v :: js, _, indent, h => by
    obtain ⟨v', js', rfl, h2, h3⟩ := h
    refine ⟨_, _, _, pretty_any (hA _) pretty _, writes_alike hA ops pretty base v v' _ h2,
      writes_alikeItems hA ops pretty base js js' indent h3, ?_⟩
    simp only [Json.outputItems, str_append, str_whenPretty]; simp [Str.str, Chr.printed, Chr.data]
end

mutual
theorem writes_exists {A : Room → Prop} (hA : A none) (ops : FloatOps F) (pretty : Bool) (base : Nat) :
    ∀ (j : Json F) (indent : Nat), ∃ t, Writes A ops pretty base indent j t
  | .obj [], indent => ⟨_, _, pretty_any hA pretty _, rfl⟩
  | .obj (m :: ms), indent => by
    obtain ⟨a, ha⟩ := writes_existsMember hA ops pretty base m indent
    obtain ⟨b, hb⟩ := writes_existsMembers hA ops pretty base ms indent
    exact ⟨_, _, _, _, ha, hb, pretty_any hA pretty _, rfl⟩
  | .arr [], indent => ⟨_, _, pretty_any hA pretty _, rfl⟩
  | .arr (v :: js), indent => by
    obtain ⟨a, ha⟩ := writes_exists hA ops pretty base v (indent + base)
    obtain ⟨b, hb⟩ := writes_existsItems hA ops pretty base js indent
    exact ⟨_, _, _, _, _, pretty_any hA pretty _, ha, hb, pretty_any hA pretty _, rfl⟩
  | .str s, indent => ⟨_, none, hA, rfl⟩
  | .float f, _ => ⟨_, rfl⟩
  | .int i, _ => ⟨_, rfl⟩
  | .bool b, _ => ⟨_, rfl⟩
  | .null, _ => ⟨_, rfl⟩

theorem writes_existsMember {A : Room → Prop} (hA : A none) (ops : FloatOps F) (pretty : Bool) (base : Nat) :
    ∀ (m : Str × Json F) (indent : Nat), ∃ t, WritesMember A ops pretty base indent m t
  | (k, v), indent => by
    obtain ⟨a, ha⟩ := writes_exists hA ops pretty base v (indent + base)
    exact ⟨_, _, none, _, hA, pretty_any hA pretty _, ha, rfl⟩

theorem writes_existsMembers {A : Room → Prop} (hA : A none) (ops : FloatOps F) (pretty : Bool) (base : Nat) :
    ∀ (ms : List (Str × Json F)) (indent : Nat), ∃ t, WritesMembers A ops pretty base indent ms t
  | [], _ => ⟨_, rfl⟩
  | m :: ms, indent => by
    obtain ⟨a, ha⟩ := writes_existsMember hA ops pretty base m indent
    obtain ⟨b, hb⟩ := writes_existsMembers hA ops pretty base ms indent
    exact ⟨_, _, _, ha, hb, rfl⟩

theorem writes_existsItems {A : Room → Prop} (hA : A none) (ops : FloatOps F) (pretty : Bool) (base : Nat) :
    ∀ (js : List (Json F)) (indent : Nat), ∃ t, WritesItems A ops pretty base indent js t
  | [], _ => ⟨_, rfl⟩
  | v :: js, indent => by
    obtain ⟨a, ha⟩ := writes_exists hA ops pretty base v (indent + base)
    obtain ⟨b, hb⟩ := writes_existsItems hA ops pretty base js indent
    exact ⟨_, _, _, _, pretty_any hA pretty _, ha, hb, rfl⟩
end

/-- A `String` with these bytes. -/
def ofBytes (bs : List UInt8) : Str := bs.map Chr.ofByte

theorem str_ofBytes {p : List UInt8} {s : Str} (h : p <+: Str.str s) : Str.str (ofBytes p) = p := by
  have h0 : ∀ b ∈ p, b ≠ 0 := by
    intro b hb
    have := h.subset hb
    obtain ⟨c, _, hc⟩ := List.mem_flatMap.mp this
    rintro rfl
    revert hc
    unfold Chr.printed
    generalize c.data = l
    induction l with
    | nil => simp
    | cons a l ih =>
      by_cases ha : a = 0
      · simp [ha]
      · rw [List.takeWhile_cons_of_pos (by simpa using ha), List.mem_cons]
        rintro (h | h)
        · exact ha h.symm
        · exact ih h
  clear h
  induction p with
  | nil => rfl
  | cons b p ih =>
    show (Chr.ofByte b).printed ++ Str.str (ofBytes p) = _
    rw [ih (fun x hx => h0 x (by simp [hx]))]
    have := h0 b (by simp)
    simp [Chr.printed, Chr.ofByte, Chr.data, this]

theorem cutTo_cut (room : Room) (s : Str) : ∃ p, CutTo s p ∧ str room s = Str.str p := by
  have h := cut_prefix room (Str.str s)
  refine ⟨ofBytes (cut room (Str.str s)), ?_, ?_⟩
  · unfold CutTo
    rw [str_ofBytes h]; exact h
  · rw [str_ofBytes h, str_eq]

mutual
theorem alike_writes {A : Room → Prop} (ops : FloatOps F) (base : Nat) :
    ∀ (j : Json F) (indent : Nat) (t : List UInt8), Writes A ops false base indent j t →
      ∃ j', Alike CutTo CutTo Eq Eq j j' ∧ t = Str.str (Json.output ops false base indent j')
  | .obj [], indent, t, h => by
    obtain ⟨e, rfl, rfl⟩ := h
    exact ⟨.obj [], ⟨[], rfl, rfl⟩, rfl⟩
  | .obj (m :: ms), indent, t, h => by
    obtain ⟨a, b, e, h1, h2, rfl, rfl⟩ := h
    obtain ⟨k', v', h3, h4, rfl⟩ := alike_writesMember ops base m indent a h1
    obtain ⟨ms', h5, rfl⟩ := alike_writesMembers ops base ms indent b h2
    refine ⟨.obj ((k', v') :: ms'), ⟨_, rfl, k', v', ms', rfl, h3, h4, h5⟩, ?_⟩
    simp only [Json.output, str_append, str_whenPretty]; simp [Str.str, Chr.printed, Chr.data, whenPretty]
  | .arr [], indent, t, h => by
    obtain ⟨e, rfl, rfl⟩ := h
    exact ⟨.arr [], ⟨[], rfl, rfl⟩, rfl⟩
  | .arr (j :: js), indent, t, h => by
    obtain ⟨i, a, b, e, rfl, h1, h2, rfl, rfl⟩ := h
    obtain ⟨v', h3, rfl⟩ := alike_writes ops base j _ a h1
    obtain ⟨js', h5, rfl⟩ := alike_writesItems ops base js indent b h2
    refine ⟨.arr (v' :: js'), ⟨_, rfl, v', js', rfl, h3, h5⟩, ?_⟩
    simp only [Json.output, str_append, str_whenPretty]; simp [Str.str, Chr.printed, Chr.data, whenPretty]
  | .str s, indent, t, h => by
    obtain ⟨room, _, rfl⟩ := h
    obtain ⟨p, h1, h2⟩ := cutTo_cut room s
    refine ⟨.str p, ⟨p, rfl, h1⟩, ?_⟩
    rw [h2]
    simp only [Json.output, str_append]; simp [Str.str, Chr.printed, Chr.data]
  | .float f, _, _, h => ⟨.float f, ⟨f, rfl, rfl⟩, h⟩
  | .int i, _, _, h => ⟨.int i, ⟨i, rfl, rfl⟩, h⟩
  | .bool b, _, _, h => ⟨.bool b, rfl, h⟩
  | .null, _, _, h => ⟨.null, rfl, h⟩

theorem alike_writesMember {A : Room → Prop} (ops : FloatOps F) (base : Nat) :
    ∀ (m : Str × Json F) (indent : Nat) (t : List UInt8), WritesMember A ops false base indent m t →
      ∃ k' v', CutTo m.1 k' ∧ Alike CutTo CutTo Eq Eq m.2 v' ∧ t = Str.str (Json.outputMember ops false base indent (k', v'))
  | (k, v), indent, t, h => by
    obtain ⟨i, room, a, _, rfl, h2, rfl⟩ := h
    obtain ⟨v', h3, rfl⟩ := alike_writes ops base v _ a h2
    obtain ⟨p, h4, h5⟩ := cutTo_cut room k
    refine ⟨p, v', h4, h3, ?_⟩
    rw [h5]
    simp only [Json.outputMember, str_append, str_whenPretty]; simp [Str.str, Chr.printed, Chr.data, whenPretty]

theorem alike_writesMembers {A : Room → Prop} (ops : FloatOps F) (base : Nat) :
    ∀ (ms : List (Str × Json F)) (indent : Nat) (t : List UInt8), WritesMembers A ops false base indent ms t →
      ∃ ms', AlikeMembers CutTo CutTo Eq Eq ms ms' ∧ t = Str.str (Json.outputMembers ops false base indent ms')
  | [], _, _, h => ⟨[], rfl, h⟩
  | (k, v) :: ms, indent, t, h => by
    obtain ⟨a, b, h1, h2, rfl⟩ := h
    obtain ⟨k', v', h3, h4, rfl⟩ := alike_writesMember ops base (k, v) indent a h1
    obtain ⟨ms', h5, rfl⟩ := alike_writesMembers ops base ms indent b h2
    refine ⟨(k', v') :: ms', ⟨k', v', ms', rfl, h3, h4, h5⟩, ?_⟩
    simp only [Json.outputMembers, str_append, str_whenPretty]; simp [Str.str, Chr.printed, Chr.data, whenPretty]

theorem alike_writesItems {A : Room → Prop} (ops : FloatOps F) (base : Nat) :
    ∀ (js : List (Json F)) (indent : Nat) (t : List UInt8), WritesItems A ops false base indent js t →
      ∃ js', AlikeItems CutTo CutTo Eq Eq js js' ∧ t = Str.str (Json.outputItems ops false base indent js')
  | [], _, _, h => ⟨[], rfl, h⟩
  | j :: js, indent, t, h => by
    obtain ⟨i, a, b, rfl, h1, h2, rfl⟩ := h
    obtain ⟨v', h3, rfl⟩ := alike_writes ops base j _ a h1
    obtain ⟨js', h5, rfl⟩ := alike_writesItems ops base js indent b h2
    refine ⟨v' :: js', ⟨v', js', rfl, h3, h5⟩, ?_⟩
    simp only [Json.outputItems, str_append, str_whenPretty]; simp [Str.str, Chr.printed, Chr.data, whenPretty]
end

end StreamMem
end Caitlyn
