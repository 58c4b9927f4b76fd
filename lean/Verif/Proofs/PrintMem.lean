import Verif.Model.PrintMem
import Verif.Spec.PrintMem

/-! # Proofs about what printing a JSON value needs -/

namespace Caitlyn.PrintMem
open Caitlyn Caitlyn.Json Caitlyn.Spec.Print
variable {F : Type}

/-- Under a condition a value, otherwise an allocation that fails. -/
def Lim {α : Type} (P : Prop) (r : Res α) (a : α) : Prop := (P → r = .ok a) ∧ (¬ P → r = .error .memory)

theorem Lim.bind {α β : Type} {P Q : Prop} {r : Res α} {a : α} {f : α → Res β} {b : β} (h : Lim P r a)
    (g : P → Lim Q (f a) b) : Lim (P ∧ Q) (r >>= f) b := by
  by_cases hp : P
  · rw [h.1 hp]
    exact ⟨fun hq => (g hp).1 hq.2, fun hq => (g hp).2 fun q => hq ⟨hp, q⟩⟩
  · rw [h.2 hp]
    exact ⟨fun hq => absurd hq.1 hp, fun _ => rfl⟩

theorem Lim.iff {α : Type} {P Q : Prop} {r : Res α} {a : α} (h : Lim P r a) (e : P ↔ Q) : Lim Q r a :=
  ⟨fun q => h.1 (e.mpr q), fun q => h.2 (mt e.mp q)⟩

theorem Lim.ok {α : Type} (a : α) : Lim True (.ok a : Res α) a := ⟨fun _ => rfl, fun h => absurd trivial h⟩

theorem enter_lim (d m indent : Nat) : Lim (1 ≤ d ∧ indent ≤ m) (enter d m indent) (m - indent) := by
  unfold enter
  by_cases h : d = 0
  · subst h
    exact ⟨fun h => absurd h.1 (by decide), fun _ => by simp⟩
  · by_cases h' : m < indent
    · exact ⟨fun h => absurd h.2 (by omega), fun _ => by simp [h']⟩
    · exact ⟨fun _ => by simp [h, h'], fun hn => absurd ⟨by omega, by omega⟩ hn⟩

theorem less_eq {base indent : Nat} (h : base ≤ indent) (h' : indent < 2 ^ 63) : less base indent = indent - base := by
  unfold less
  omega

theorem more_eq {base indent : Nat} (h : base ≤ indent) (h' : indent < 2 ^ 63) : more base indent = indent + base := by
  unfold more
  omega

theorem close_lim (pretty : Bool) {base m indent : Nat} (h : base ≤ indent) (h' : indent < 2 ^ 63) :
    Lim (closing pretty base indent ≤ m) (close pretty base m indent) (closing pretty base indent) := by
  unfold close closing
  rw [less_eq h h']
  cases pretty with
  | false => exact ⟨fun _ => rfl, fun hn => absurd (Nat.zero_le _) hn⟩
  | true =>
    by_cases hm : m < indent - base
    · exact ⟨fun hl => absurd hl (by simp; omega), fun _ => by simp [hm]⟩
    · exact ⟨fun _ => by simp [hm], fun hn => absurd (by simp; omega) hn⟩

theorem closing_spaces (pretty : Bool) (base indent : Nat) :
    whenPretty pretty (spaces (closing pretty base indent)) = whenPretty pretty (spaces (indent - base)) := by
  cases pretty <;> rfl

theorem frame_lim {pretty : Bool} {base d m indent : Nat} (hb : base ≤ indent) (hm : m < 2 ^ 63) {P : Prop}
    {body : Nat → Res (Str × Nat)} {t : Str} {n : Nat} (a z : Str)
    (h : 1 ≤ d → indent ≤ m → Lim P (body (m - indent)) (t, n)) :
    Lim (((1 ≤ d ∧ indent ≤ m) ∧ P) ∧ closing pretty base indent ≤ m - indent)
      (do
        let m ← enter d m indent
        let (t, n) ← body m
        let l ← close pretty base m indent
        .ok (a ++ t ++ whenPretty pretty (spaces l) ++ z, indent + n + l))
      (a ++ t ++ whenPretty pretty (spaces (indent - base)) ++ z, indent + n + closing pretty base indent) := by
  refine ((enter_lim d m indent).bind (f := fun m => do
        let (t, n) ← body m
        let l ← close pretty base m indent
        .ok (a ++ t ++ whenPretty pretty (spaces l) ++ z, indent + n + l)) (Q := P ∧ closing pretty base indent ≤ m - indent ∧ True)
    fun hp => ((h hp.1 hp.2).bind fun _ => (close_lim pretty hb (by omega)).bind fun _ => ?_)).iff ?_
  · have := Lim.ok (a ++ t ++ whenPretty pretty (spaces (closing pretty base indent)) ++ z, indent + n + closing pretty base indent)
    rw [closing_spaces] at this ⊢
    exact this
  · simp only [and_true, and_assoc]

mutual

theorem print_lim (ops : FloatOps F) (pretty : Bool) (base d m indent : Nat) (hb : base ≤ indent) (hm : m < 2 ^ 63) : (j : Json F) →
    Lim (height j ≤ d ∧ peak pretty base indent j ≤ m) (print ops pretty base d m indent j)
      (output ops pretty base indent j, made pretty base indent j)
  | .obj [] => by
    rw [print, output]
    exact (frame_lim hb hm (body := fun _ => .ok ([], 0)) _ _ fun _ _ => Lim.ok _).iff
      (by simp only [height, heightsOf, peak, peaksOf, and_true, true_and]; omega)
  | .obj ((k, v) :: ms) => by
    rw [print, output, outputMember]
    refine (frame_lim hb hm (P := (height v ≤ d - 1 ∧ peak pretty base (indent + base) v ≤ m - indent) ∧
      (heightsOf ms ≤ d - 1 ∧ peaksOf pretty base (indent + base) ms ≤ m - indent) ∧ True) _ _ fun h1 h2 => ?_).iff ?_
    · rw [more_eq hb (by omega)]
      exact (print_lim ops pretty base (d - 1) (m - indent) (indent + base) (by omega) (by omega) v).bind fun _ =>
        (printMembers_lim ops pretty base (d - 1) (m - indent) indent hb (by omega) (by omega) ms).bind fun _ => Lim.ok _
    · simp only [height, heightsOf, peak, peaksOf, and_true, true_and]
      omega
  | .arr [] => by
    rw [print, output]
    exact (frame_lim hb hm (body := fun _ => .ok ([], 0)) _ _ fun _ _ => Lim.ok _).iff
      (by simp only [height, heights, peak, peaks, and_true, true_and]; omega)
  | .arr (j :: js) => by
    rw [print, output]
    refine (frame_lim hb hm (P := (height j ≤ d - 1 ∧ peak pretty base (indent + base) j ≤ m - indent) ∧
      (heights js ≤ d - 1 ∧ peaks pretty base (indent + base) js ≤ m - indent) ∧ True) _ _ fun h1 h2 => ?_).iff ?_
    · rw [more_eq hb (by omega)]
      exact (print_lim ops pretty base (d - 1) (m - indent) (indent + base) (by omega) (by omega) j).bind fun _ =>
        (printItems_lim ops pretty base (d - 1) (m - indent) indent hb (by omega) (by omega) js).bind fun _ => Lim.ok _
    · simp only [height, heights, peak, peaks, and_true, true_and]
      omega
  | .str s => by
    rw [print, output, made]
    · refine ((enter_lim d m indent).bind (Q := True) fun _ => ?_).iff ?_
      · exact Lim.ok _
      · simp [height, peak]
    all_goals simp
  | .float f => by
    rw [print, output, made]
    · refine ((enter_lim d m indent).bind (Q := True) fun _ => ?_).iff ?_
      · exact Lim.ok _
      · simp [height, peak]
    all_goals simp
  | .int i => by
    rw [print, output, made]
    · refine ((enter_lim d m indent).bind (Q := True) fun _ => ?_).iff ?_
      · exact Lim.ok _
      · simp [height, peak]
    all_goals simp
  | .bool b => by
    rw [print, output, made]
    · refine ((enter_lim d m indent).bind (Q := True) fun _ => ?_).iff ?_
      · exact Lim.ok _
      · simp [height, peak]
    all_goals simp
  | .null => by
    rw [print, output, made]
    · refine ((enter_lim d m indent).bind (Q := True) fun _ => ?_).iff ?_
      · exact Lim.ok _
      · simp [height, peak]
    all_goals simp

theorem printMembers_lim (ops : FloatOps F) (pretty : Bool) (base d m indent : Nat) (hb : base ≤ indent) (hi : indent < 2 ^ 63)
    (hm : m < 2 ^ 63) : (ms : List (Str × Json F)) →
    Lim (heightsOf ms ≤ d ∧ peaksOf pretty base (indent + base) ms ≤ m) (printMembers ops pretty base d m indent ms)
      (outputMembers ops pretty base indent ms, madesOf pretty base (indent + base) ms)
  | [] => by
    rw [printMembers, outputMembers]
    refine (Lim.ok _).iff ?_
    simp [heightsOf, peaksOf]
  | (k, v) :: ms => by
    rw [printMembers, outputMembers, outputMember, more_eq hb hi, madesOf]
    refine ((print_lim ops pretty base d m (indent + base) (by omega) hm v).bind fun _ =>
      (printMembers_lim ops pretty base d m indent hb hi hm ms).bind (Q := True) fun _ => ?_).iff ?_
    · have := Lim.ok (c!"," ++ whenPretty pretty c!"\n" ++ whenPretty pretty (spaces indent) ++ c!"\"" ++ k ++ c!"\"" ++ c!":" ++
        whenPretty pretty c!" " ++ output ops pretty base (indent + base) v ++ outputMembers ops pretty base indent ms,
        made pretty base (indent + base) v + madesOf pretty base (indent + base) ms)
      simp only [List.append_assoc] at this ⊢
      exact this
    · simp only [heightsOf, peaksOf, and_true, true_and]
      omega

theorem printItems_lim (ops : FloatOps F) (pretty : Bool) (base d m indent : Nat) (hb : base ≤ indent) (hi : indent < 2 ^ 63)
    (hm : m < 2 ^ 63) : (js : List (Json F)) →
    Lim (heights js ≤ d ∧ peaks pretty base (indent + base) js ≤ m) (printItems ops pretty base d m indent js)
      (outputItems ops pretty base indent js, mades pretty base (indent + base) js)
  | [] => by
    rw [printItems, outputItems]
    refine (Lim.ok _).iff ?_
    simp [heights, peaks]
  | j :: js => by
    rw [printItems, outputItems, more_eq hb hi, mades]
    refine ((print_lim ops pretty base d m (indent + base) (by omega) hm j).bind fun _ =>
      (printItems_lim ops pretty base d m indent hb hi hm js).bind (Q := True) fun _ => ?_).iff ?_
    · exact Lim.ok _
    simp only [heights, peaks, and_true, true_and]
    omega

end

/-- `indent + (indent + base) + (indent + 2 * base) + …`, so many terms. -/
def stairs (base : Nat) : Nat → Nat → Nat
  | 0, _ => 0
  | h + 1, indent => indent + stairs base h (indent + base)

theorem stairs_mono (base : Nat) : (h h' indent : Nat) → h ≤ h' → stairs base h indent ≤ stairs base h' indent
  | 0, _, _, _ => Nat.zero_le _
  | h + 1, 0, _, hl => by omega
  | h + 1, h' + 1, indent, hl => by
    have := stairs_mono base h h' (indent + base) (by omega)
    simp only [stairs]
    omega

theorem stairs_max (base h h' indent : Nat) : stairs base (max h h') indent = max (stairs base h indent) (stairs base h' indent) := by
  rcases Nat.le_total h h' with hl | hl
  · rw [Nat.max_eq_right hl, Nat.max_eq_right (stairs_mono base _ _ indent hl)]
  · rw [Nat.max_eq_left hl, Nat.max_eq_left (stairs_mono base _ _ indent hl)]

theorem stairs_eq (base : Nat) : (h indent : Nat) → 2 * stairs base h indent + base * h = h * (2 * indent + base * h)
  | 0, indent => by simp [stairs]
  | h + 1, indent => by
    have := stairs_eq base h (indent + base)
    simp only [stairs, Nat.mul_add, Nat.add_mul, Nat.mul_one, Nat.one_mul] at this ⊢
    have e1 : h * (base * h) = base * (h * h) := Nat.mul_left_comm _ _ _
    have e2 : h * (2 * indent) = 2 * (h * indent) := Nat.mul_left_comm _ _ _
    have e3 : h * (2 * base) = 2 * (base * h) := by rw [Nat.mul_left_comm, Nat.mul_comm h base]
    have e4 : h * base = base * h := Nat.mul_comm _ _
    simp only [e1, e2, e3, e4] at this ⊢
    omega

mutual

theorem peak_compact (base indent : Nat) : (j : Json F) → peak false base indent j = stairs base (height j) indent
  | .obj ms => by
    rw [peak, height, Nat.add_comm 1, stairs, peaksOf_compact base (indent + base) ms]
    simp [closing]
  | .arr js => by
    rw [peak, height, Nat.add_comm 1, stairs, peaks_compact base (indent + base) js]
    simp [closing]
  | .str s | .float f | .int i | .bool b | .null => by simp [peak, height, stairs]

theorem peaks_compact (base indent : Nat) : (js : List (Json F)) → peaks false base indent js = stairs base (heights js) indent
  | [] => by simp [peaks, heights, stairs]
  | j :: js => by rw [peaks, heights, stairs_max, peak_compact base indent j, peaks_compact base indent js]

theorem peaksOf_compact (base indent : Nat) : (ms : List (Str × Json F)) →
    peaksOf false base indent ms = stairs base (heightsOf ms) indent
  | [] => by simp [peaksOf, heightsOf, stairs]
  | (_, j) :: ms => by rw [peaksOf, heightsOf, stairs_max, peak_compact base indent j, peaksOf_compact base indent ms]

end

mutual

theorem height_pos : (j : Json F) → 1 ≤ height j
  | .obj ms => by rw [height]; omega
  | .arr js => by rw [height]; omega
  | .str s | .float f | .int i | .bool b | .null => by simp [height]

theorem made_compact (base indent : Nat) : (j : Json F) →
    made false base indent j ≤ count j * (indent + base * (height j - 1))
  | .obj ms => by
    rw [made, height, count]
    have := madesOf_compact base (indent + base) ms
    simp only [closing, Bool.false_eq_true, if_false, Nat.add_zero, Nat.add_mul, Nat.one_mul]
    have e : 1 + heightsOf ms - 1 = heightsOf ms := by omega
    rw [e]
    rcases Nat.eq_zero_or_pos (heightsOf ms) with h | h
    · cases ms with
      | nil => simp [madesOf]; omega
      | cons m ms =>
        obtain ⟨k, v⟩ := m
        have := height_pos v
        rw [heightsOf] at h
        omega
    · obtain ⟨n, hn⟩ : ∃ n, heightsOf ms = n + 1 := ⟨heightsOf ms - 1, by omega⟩
      rw [hn] at this ⊢
      have e : indent + base + base * (n + 1 - 1) = indent + base * (n + 1) := by
        rw [Nat.mul_add, Nat.add_sub_cancel]; omega
      rw [e] at this
      omega
  | .arr js => by
    rw [made, height, count]
    have := mades_compact base (indent + base) js
    simp only [closing, Bool.false_eq_true, if_false, Nat.add_zero, Nat.add_mul, Nat.one_mul]
    have e : 1 + heights js - 1 = heights js := by omega
    rw [e]
    rcases Nat.eq_zero_or_pos (heights js) with h | h
    · cases js with
      | nil => simp [mades]; omega
      | cons j js =>
        have := height_pos j
        rw [heights] at h
        omega
    · obtain ⟨n, hn⟩ : ∃ n, heights js = n + 1 := ⟨heights js - 1, by omega⟩
      rw [hn] at this ⊢
      have e : indent + base + base * (n + 1 - 1) = indent + base * (n + 1) := by
        rw [Nat.mul_add, Nat.add_sub_cancel]; omega
      rw [e] at this
      omega
  | .str s | .float f | .int i | .bool b | .null => by simp [made, height, count]

theorem mades_compact (base indent : Nat) : (js : List (Json F)) →
    mades false base indent js ≤ counts js * (indent + base * (heights js - 1))
  | [] => by simp [mades]
  | j :: js => by
    rw [mades, counts, heights, Nat.add_mul]
    refine Nat.add_le_add (Nat.le_trans (made_compact base indent j) ?_) (Nat.le_trans (mades_compact base indent js) ?_)
    · exact Nat.mul_le_mul_left _ (Nat.add_le_add_left (Nat.mul_le_mul_left _ (by omega)) _)
    · exact Nat.mul_le_mul_left _ (Nat.add_le_add_left (Nat.mul_le_mul_left _ (by omega)) _)

theorem madesOf_compact (base indent : Nat) : (ms : List (Str × Json F)) →
    madesOf false base indent ms ≤ countsOf ms * (indent + base * (heightsOf ms - 1))
  | [] => by simp [madesOf]
  | (_, j) :: ms => by
    rw [madesOf, countsOf, heightsOf, Nat.add_mul]
    refine Nat.add_le_add (Nat.le_trans (made_compact base indent j) ?_) (Nat.le_trans (madesOf_compact base indent ms) ?_)
    · exact Nat.mul_le_mul_left _ (Nat.add_le_add_left (Nat.mul_le_mul_left _ (by omega)) _)
    · exact Nat.mul_le_mul_left _ (Nat.add_le_add_left (Nat.mul_le_mul_left _ (by omega)) _)

end

mutual

theorem made_pretty (ops : FloatOps F) (base indent : Nat) (h : base ≤ indent) : (j : Json F) →
    made true base indent j ≤ indent + 2 * (output ops true base indent j).length
  | .obj [] => by
    simp only [made, madesOf, output, closing, whenPretty, spaces, if_true, List.length_append, List.length_replicate]
    omega
  | .obj ((k, v) :: ms) => by
    have h1 := made_pretty ops base (indent + base) (by omega) v
    have h2 := madesOf_pretty ops base indent h ms
    simp only [made, madesOf, output, outputMember, closing, whenPretty, spaces, if_true, List.length_append, List.length_replicate]
    omega
  | .arr [] => by
    simp only [made, mades, output, closing, whenPretty, spaces, if_true, List.length_append, List.length_replicate]
    omega
  | .arr (j :: js) => by
    have h1 := made_pretty ops base (indent + base) (by omega) j
    have h2 := mades_pretty ops base indent h js
    simp only [made, mades, output, closing, whenPretty, spaces, if_true, List.length_append, List.length_replicate]
    omega
  | .str s | .float f | .int i | .bool b | .null => by simp [made]

theorem madesOf_pretty (ops : FloatOps F) (base indent : Nat) (h : base ≤ indent) : (ms : List (Str × Json F)) →
    madesOf true base (indent + base) ms ≤ 2 * (outputMembers ops true base indent ms).length
  | [] => by simp [madesOf]
  | (k, v) :: ms => by
    have h1 := made_pretty ops base (indent + base) (by omega) v
    have h2 := madesOf_pretty ops base indent h ms
    simp only [madesOf, outputMembers, outputMember, whenPretty, spaces, if_true, List.length_append, List.length_replicate]
    omega

theorem mades_pretty (ops : FloatOps F) (base indent : Nat) (h : base ≤ indent) : (js : List (Json F)) →
    mades true base (indent + base) js ≤ 2 * (outputItems ops true base indent js).length
  | [] => by simp [mades]
  | j :: js => by
    have h1 := made_pretty ops base (indent + base) (by omega) j
    have h2 := mades_pretty ops base indent h js
    simp only [mades, outputItems, whenPretty, spaces, if_true, List.length_append, List.length_replicate]
    omega

end

mutual

theorem output_compact (ops : FloatOps F) (base indent base' indent' : Nat) : (j : Json F) →
    output ops false base indent j = output ops false base' indent' j
  | .obj [] => by simp [output, whenPretty]
  | .obj ((k, v) :: ms) => by
    simp only [output, outputMember, whenPretty, Bool.false_eq_true, if_false]
    rw [output_compact ops base (indent + base) base' (indent' + base') v, outputMembers_compact ops base indent base' indent' ms]
  | .arr [] => by simp [output, whenPretty]
  | .arr (j :: js) => by
    simp only [output, whenPretty, Bool.false_eq_true, if_false]
    rw [output_compact ops base (indent + base) base' (indent' + base') j, outputItems_compact ops base indent base' indent' js]
  | .str s | .float f | .int i | .bool b | .null => by simp [output]

theorem outputMembers_compact (ops : FloatOps F) (base indent base' indent' : Nat) : (ms : List (Str × Json F)) →
    outputMembers ops false base indent ms = outputMembers ops false base' indent' ms
  | [] => by simp [outputMembers]
  | (k, v) :: ms => by
    simp only [outputMembers, outputMember, whenPretty, Bool.false_eq_true, if_false]
    rw [output_compact ops base (indent + base) base' (indent' + base') v, outputMembers_compact ops base indent base' indent' ms]

theorem outputItems_compact (ops : FloatOps F) (base indent base' indent' : Nat) : (js : List (Json F)) →
    outputItems ops false base indent js = outputItems ops false base' indent' js
  | [] => by simp [outputItems]
  | j :: js => by
    simp only [outputItems, whenPretty, Bool.false_eq_true, if_false]
    rw [output_compact ops base (indent + base) base' (indent' + base') j, outputItems_compact ops base indent base' indent' js]

end

end Caitlyn.PrintMem
