import Verif.Model.Application
import Verif.Model.Console
import Verif.Proofs.StrUtil
import Verif.Lit

/-! # Properties C77 and C80: console input, application start -/

namespace Caitlyn
open Caitlyn.Spec

/-! ## C80 -/

/-- A call whose arguments are as `main` gets them: `argc` strings, each ended by a NUL byte. -/
def GoodCall : App.Call → Prop
  | .initialise => True
  | .initialize argc argv => argc ≤ argv.length ∧ ∀ m ∈ argv, (0 : UInt8) ∈ m

/-- The arguments a call announces, up to their NUL bytes. -/
def announced : App.Call → List (List UInt8)
  | .initialise => []
  | .initialize argc argv => (argv.take argc.toNat).map fun m => m.takeWhile (· != 0)

theorem copyArgs_ok : ∀ (n : Nat) (argv : List (List UInt8)), n ≤ argv.length → (∀ m ∈ argv, (0 : UInt8) ∈ m) →
    App.copyArgs n argv = .ok ((argv.take n).map fun m => m.takeWhile (· != 0))
  | 0, _, _, _ => by simp [App.copyArgs]
  | n + 1, [], h, _ => by simp at h
  | n + 1, m :: argv, h, hz => by
    simp only [App.copyArgs, App.copyArg, if_pos (hz m (by simp)), bind, Except.bind,
      copyArgs_ok n argv (by simp at h; omega) (fun x hx => hz x (by simp [hx])), pure, Except.pure]
    rfl

/-- C80, the precondition is needed: with an argument that is not ended by a NUL byte, or with fewer arguments than announced, the
memory behind is read. -/
theorem C80_bad_arguments (argc : Int) (argv : List (List UInt8)) (h : argc > 0)
    (hb : argv = [] ∨ ∃ m ms, argv = m :: ms ∧ (0 : UInt8) ∉ m) : (App.call {} (.initialize argc argv)).1 = .error .ub := by
  obtain ⟨n, hn⟩ : ∃ n, argc.toNat = n + 1 := ⟨argc.toNat - 1, by omega⟩
  have hs : App.setArgs argc argv {} = .error .ub := by
    unfold App.setArgs
    rw [if_pos h, hn]
    rcases hb with rfl | ⟨m, ms, rfl, hm⟩
    · rfl
    · simp [App.copyArgs, App.copyArg, hm, bind, Except.bind]
  simp [App.call, hs]

example : (App.call {} (.initialize 1 [b!"prog"])).1 = .error .ub := C80_bad_arguments 1 _ (by decide) (.inr ⟨_, _, rfl, by decide⟩)

/-- C80. In every sequence of initialisation calls, of either kind, the first succeeds and stores exactly the
arguments it announces, and every later one throws `runtime_error` and changes nothing. -/
theorem C80_once (c : App.Call) (cs : List App.Call) (hc : GoodCall c) :
    App.run {} (c :: cs) =
      (.ok () :: List.replicate cs.length (.error .runtimeError), { initialized := true, args := announced c }) := by
  have later : ∀ (cs : List App.Call) (args : List (List UInt8)),
      App.run { initialized := true, args := args } cs =
        (List.replicate cs.length (.error .runtimeError), { initialized := true, args := args }) := by
    intro cs args
    induction cs with
    | nil => rfl
    | cons d cs ih =>
      cases d <;> simp [App.run, App.call, ih, List.replicate_succ]
  have first : App.call {} c = (.ok (), { initialized := true, args := announced c }) := by
    cases c with
    | initialise => rfl
    | «initialize» argc argv =>
      obtain ⟨h1, h2⟩ := hc
      simp only [App.call, App.setArgs, announced]
      by_cases h0 : argc > 0
      · rw [if_pos h0, copyArgs_ok _ _ (by omega) h2]; rfl
      · rw [if_neg h0]
        have : argc.toNat = 0 := by omega
        simp [this]
  simp only [App.run, first, later]

example : GoodCall (.initialize 2 [b!"prog" ++ [0], b!"-v" ++ [0, 7]]) ∧
    App.run {} [.initialize 2 [b!"prog" ++ [0], b!"-v" ++ [0, 7]], .initialise] =
      ([.ok (), .error .runtimeError], { initialized := true, args := [b!"prog", b!"-v"] }) := by
  refine ⟨⟨by decide, by decide⟩, by decide⟩

/-! ## C77 -/

/-- A line: valid characters without newline. -/
def IsLine (l : Str) : Prop := ∀ c ∈ l, Shape c.data ∧ c ≠ ⟨b!"\n"⟩

theorem newline_not_in_line (l : Str) (h : IsLine l) : ∀ b ∈ Str.str l, (b != 0x0A) = true := by
  intro b hb
  rw [Str.str_shapes l (fun c hc => (h c hc).1)] at hb
  obtain ⟨d, hd, hbd⟩ := List.mem_flatten.mp hb
  obtain ⟨c, hc, rfl⟩ := List.mem_map.mp hd
  obtain ⟨h1, h2⟩ := h c hc
  obtain ⟨d⟩ := c
  simp only at h1 hbd
  have key : ∀ x : UInt8, 0x80 ≤ x → (x != 0x0A) = true := by
    intro x hx
    simp only [bne_iff_ne]
    rintro rfl
    exact absurd hx (by decide)
  have lift : ∀ x y : UInt8, y ≤ x → 0x80 ≤ y → 0x80 ≤ x := fun x y h1 h2 => UInt8.le_trans h2 h1
  cases h1 with
  | one x _ _ =>
    simp only [List.mem_singleton] at hbd
    subst hbd
    simp only [bne_iff_ne]
    rintro rfl
    exact h2 rfl
  | two x y p1 p2 p3 =>
    simp only [List.mem_cons, List.not_mem_nil, or_false] at hbd
    rcases hbd with rfl | rfl
    · exact key _ (lift _ _ p1 (by decide))
    · exact key _ p3.1
  | three x y z p1 p2 p3 p4 =>
    simp only [List.mem_cons, List.not_mem_nil, or_false] at hbd
    rcases hbd with rfl | rfl | rfl
    · exact key _ (lift _ _ p1 (by decide))
    · exact key _ p3.1
    · exact key _ p4.1
  | four x y z w p1 p2 p3 p4 p5 =>
    simp only [List.mem_cons, List.not_mem_nil, or_false] at hbd
    rcases hbd with rfl | rfl | rfl | rfl
    · exact key _ (lift _ _ p1 (by decide))
    · exact key _ p3.1
    · exact key _ p4.1
    · exact key _ p5.1

theorem getline_line (l : Str) (h : IsLine l) (rest : List UInt8) :
    Console.getline (Str.str l ++ 0x0A :: rest) = (Str.str l, rest) := by
  have hp := newline_not_in_line l h
  unfold Console.getline
  rw [List.takeWhile_append_of_pos hp, List.dropWhile_append_of_pos hp]
  simp

theorem readLine_line (l : Str) (h : IsLine l) (rest : List UInt8) :
    Console.readLine (Str.str l ++ 0x0A :: rest) = (.ok l, rest) := by
  simp only [Console.readLine, getline_line l h rest, Str.ofStdString_str l (fun c hc => (h c hc).1)]

/-- C77. If the input begins with the given lines, each ended by a newline, that many calls of `ReadLine` return
exactly them, in order, and leave the rest of the input. -/
theorem C77_lines (ls : List Str) (h : ∀ l ∈ ls, IsLine l) (rest : List UInt8) :
    Console.readLines ls.length (ls.flatMap (fun l => Str.str l ++ [0x0A]) ++ rest) = (ls.map .ok, rest) := by
  induction ls with
  | nil => rfl
  | cons l ls ih =>
    have ih := ih (fun x hx => h x (by simp [hx]))
    have e : (l :: ls).flatMap (fun l => Str.str l ++ [0x0A]) ++ rest =
        Str.str l ++ 0x0A :: (ls.flatMap (fun l => Str.str l ++ [0x0A]) ++ rest) := by
      simp [List.flatMap_cons]
    simp only [List.length_cons, Console.readLines]
    rw [e, readLine_line l (h l (by simp))]
    simp only [ih, List.map_cons]

/-- C77. The last line needs no newline, and at the end of the input `ReadLine` returns the empty string. -/
theorem C77_end_of_input (l : Str) (h : IsLine l) :
    Console.readLine (Str.str l) = (.ok l, []) ∧ Console.readLine [] = (.ok [], []) := by
  have hp := newline_not_in_line l h
  refine ⟨?_, rfl⟩
  have e : Console.getline (Str.str l) = (Str.str l, []) := by
    unfold Console.getline
    have t := List.takeWhile_append_of_pos (l₂ := []) hp
    have d := List.dropWhile_append_of_pos (l₂ := []) hp
    simp only [List.append_nil, List.takeWhile_nil, List.dropWhile_nil] at t d
    rw [t, d]; rfl
  simp only [Console.readLine, e, Str.ofStdString_str l (fun c hc => (h c hc).1)]

/-- C77. What `WriteLine` writes, `ReadLine` reads back. -/
theorem C77_write_read (ls : List Str) (h : ∀ l ∈ ls, IsLine l) :
    (Console.readLines ls.length (ls.foldl Console.writeLine [])).1 = ls.map .ok := by
  have : ∀ (ls : List Str) (out : List UInt8),
      ls.foldl Console.writeLine out = out ++ ls.flatMap (fun l => Str.str l ++ [0x0A]) := by
    intro ls
    induction ls with
    | nil => intro out; simp
    | cons l ls ih => intro out; simp [ih, Console.writeLine]
  rw [this ls [], List.nil_append]
  have := C77_lines ls h []
  rw [List.append_nil] at this
  rw [this]

/-- C77. Partial: on a line that is not empty, `ReadChar` returns its first character and consumes the line.
Missing: empty lines and the end of the input (`C77_fails`). -/
theorem C77_char_partial (c : Chr) (l : Str) (h : IsLine (c :: l)) (rest : List UInt8) :
    Console.readChar (Str.str (c :: l) ++ 0x0A :: rest) = (.ok c, rest) := by
  simp only [Console.readChar, readLine_line _ h]
  rfl

/-- C77 is false for `ReadChar` on an empty line and at the end of the input: it reads the first element of an empty
string. -/
theorem C77_fails (rest : List UInt8) :
    (Console.readChar (0x0A :: rest)).1 = .error .ub ∧ (Console.readChar []).1 = .error .ub :=
  ⟨rfl, rfl⟩

example : Console.readLines 3 b!"héllo\n\nlast" = ([.ok c!"héllo", .ok [], .ok c!"last"], []) ∧
    Console.readChar b!"yes\nrest" = (.ok ⟨b!"y"⟩, b!"rest") := by decide

end Caitlyn
