import Verif.Model.Extract
import Verif.Props.Console

/-! # C109: strings from streams -/

namespace Caitlyn
open Spec Extract

theorem getline_ended (l : Str) (h : IsLine l) (rest : List UInt8) :
    getline { inp := Str.str l ++ 0x0A :: rest } = (Str.str l, { inp := rest }) := by
  have hp := newline_not_in_line l h
  unfold getline
  simp only [List.takeWhile_append_of_pos hp, List.dropWhile_append_of_pos hp]
  simp

theorem getline_last (l : Str) (h : IsLine l) :
    getline { inp := Str.str l } = (Str.str l, { inp := [], eof := true, fail := (Str.str l).isEmpty }) := by
  have hp := newline_not_in_line l h
  have t := List.takeWhile_append_of_pos (l₂ := []) hp
  have d := List.dropWhile_append_of_pos (l₂ := []) hp
  simp only [List.append_nil, List.takeWhile_nil, List.dropWhile_nil] at t d
  unfold getline
  simp only [t, d]
  simp

theorem str_isEmpty (l : Str) (h : IsLine l) : (Str.str l).isEmpty = l.isEmpty := by
  cases l with
  | nil => rfl
  | cons c l =>
    rw [Str.str_shapes _ fun c hc => (h c hc).1, List.map_cons, List.flatten_cons]
    have := Shape.ne_nil (h c List.mem_cons_self).1
    cases hd : c.data with
    | nil => exact absurd hd this
    | cons a as => rfl

/-- **C109 (one line).** On a good stream that begins with a line and a newline, `>>` assigns the line and takes both; the line may
be empty. -/
theorem C109_line (l : Str) (h : IsLine l) (rest : List UInt8) (old : Str) :
    extract { inp := Str.str l ++ 0x0A :: rest } old = ({ inp := rest }, .ok l) := by
  have hg : (IStream.mk (Str.str l ++ 0x0A :: rest) false false).good = true := rfl
  simp only [extract, hg, if_true, getline_ended l h rest, Str.ofStdString_str l (fun c hc => (h c hc).1)]

/-- **C109 (round trip).** What `<<` writes, followed by a newline each, `>>` reads back. -/
theorem C109_roundtrip (s : Str) (h : IsLine s) (rest : List UInt8) (old : Str) :
    (extract { inp := Extract.insert [] s ++ 0x0A :: rest } old).2 = .ok s := by
  have := C109_line s h rest old
  simp only [Extract.insert, List.nil_append, this]

/-- **C109 (all lines).** If every line of the text is ended by a newline, `while (is >> str)` visits exactly the lines, in
order, and ends. Missing: texts whose last line is not ended, see `C109_fails`. -/
theorem C109_lines_partial (ls : List Str) (h : ∀ l ∈ ls, IsLine l) (old : Str) (n : Nat) (hn : ls.length < n) :
    loop n { inp := ls.flatMap fun l => Str.str l ++ [0x0A] } old = (ls, some (.ok ())) := by
  induction ls generalizing old n with
  | nil =>
    cases n with
    | zero => cases hn
    | succ n => rfl
  | cons l ls ih =>
    cases n with
    | zero => cases hn
    | succ n =>
      have e : (l :: ls).flatMap (fun l => Str.str l ++ [0x0A]) =
          Str.str l ++ 0x0A :: ls.flatMap (fun l => Str.str l ++ [0x0A]) := by simp [List.flatMap_cons]
      rw [e]
      simp only [loop, C109_line l (h l List.mem_cons_self)]
      rw [ih (fun x hx => h x (List.mem_cons_of_mem _ hx)) l n (by simpa using hn)]
      rfl

/-- **C109 fails for a last line without newline.** `while (is >> str)` visits the lines and then visits the last line for ever:
the extraction that meets the end of the text sets `eofbit`, and from then on `>>` neither assigns nor fails. -/
theorem C109_fails (ls : List Str) (h : ∀ l ∈ ls, IsLine l) (last : Str) (hl : IsLine last) (hne : last ≠ []) (old : Str) (n : Nat) :
    loop (ls.length + n) { inp := ls.flatMap (fun l => Str.str l ++ [0x0A]) ++ Str.str last } old =
      (ls ++ List.replicate n last, none) := by
  induction ls generalizing old with
  | nil =>
    have stuck : ∀ n, loop n { inp := [], eof := true } last = (List.replicate n last, none) := by
      intro n
      induction n with
      | zero => rfl
      | succ n ih =>
        have : extract { inp := [], eof := true } last = ({ inp := [], eof := true }, .ok last) := rfl
        simp only [loop, this, ih]
        rfl
    cases n with
    | zero => rfl
    | succ n =>
      have he : (Str.str last).isEmpty = false := by
        rw [str_isEmpty last hl]; cases last with
        | nil => exact absurd rfl hne
        | cons => rfl
      have : extract { inp := Str.str last } old = ({ inp := [], eof := true }, .ok last) := by
        have hg : (IStream.mk (Str.str last) false false).good = true := rfl
        simp only [extract, hg, if_true, getline_last last hl, Str.ofStdString_str last (fun c hc => (hl c hc).1), he]
      simp only [List.length_nil, List.flatMap_nil, List.nil_append, loop, this, stuck]
      simp [IStream.test, List.replicate_succ]
  | cons l ls ih =>
    have e : (l :: ls).flatMap (fun l => Str.str l ++ [0x0A]) ++ Str.str last =
        Str.str l ++ 0x0A :: (ls.flatMap (fun l => Str.str l ++ [0x0A]) ++ Str.str last) := by simp [List.flatMap_cons]
    have hlen : (l :: ls).length + n = (ls.length + n) + 1 := by simp; omega
    rw [e, hlen]
    simp only [loop, C109_line l (h l List.mem_cons_self)]
    rw [ih (fun x hx => h x (List.mem_cons_of_mem _ hx)) l]
    rfl

/-- **C109 (malformed lines).** If the line cannot be decoded, `>>` throws or is undefined exactly as the constructor of `String`
on that line is, the line is taken from the stream, and the next line can be read. -/
theorem C109_malformed (line rest : List UInt8) (h : 0x0A ∉ line) (old : Str) :
    extract { inp := line ++ 0x0A :: rest } old = ({ inp := rest }, Str.ofStdString line) := by
  have hp : ∀ b ∈ line, (b != 0x0A) = true := by
    intro b hb; simp only [bne_iff_ne]; rintro rfl; exact h hb
  have hg : (IStream.mk (line ++ 0x0A :: rest) false false).good = true := rfl
  have : getline { inp := line ++ 0x0A :: rest } = (line, { inp := rest }) := by
    unfold getline
    simp only [List.takeWhile_append_of_pos hp, List.dropWhile_append_of_pos hp]
    simp
  simp only [extract, hg, if_true, this]

/-- **C109 (end of the text).** At the end of the text `>>` on a good stream empties the string and fails; on a stream that is not
good it leaves the string alone. -/
theorem C109_end (old : Str) (is : IStream) (h : is.good = false) :
    extract { inp := [] } old = ({ inp := [], eof := true, fail := true }, .ok []) ∧ extract is old = (is, .ok old) := by
  refine ⟨rfl, ?_⟩
  simp only [extract, h]
  rfl

example : loop 5 { inp := b!"a\n\nbc\n" } [] = ([c!"a", [], c!"bc"], some (.ok ())) := by decide +kernel
example : loop 5 { inp := b!"a\nbc" } [] = ([c!"a", c!"bc", c!"bc", c!"bc", c!"bc"], none) := by decide +kernel
example : loop 5 { inp := [0x61, 0x0A, 0xFF, 0x0A] } [] = ([c!"a"], some (.error .runtimeError)) := by decide +kernel

end Caitlyn
