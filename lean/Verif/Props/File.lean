import Verif.Proofs.File
import Verif.Spec.Lines

/-!
# Properties C73-C76, C87, C88: `File`

A history is a list of calls on a `File` object (`run`), or of calls on several objects of one file (`acts`).
-/

namespace Caitlyn
open Caitlyn.Spec File

/-! ## C73 -/

theorem line_nonl (l : Str) (h : IsLine l) : (0x0A : UInt8) ∉ Str.str l := by
  intro hm
  obtain ⟨c, hc, hb⟩ := List.mem_flatMap.mp hm
  obtain ⟨hs, hn⟩ := h c hc
  have hp : (0x0A : UInt8) ∈ c.data := by
    unfold Chr.printed at hb
    exact (List.takeWhile_sublist _).mem hb
  generalize c.data = d at *
  cases hs with
  | one b h1 h2 => simp at hp; subst hp; exact hn rfl
  | two b c h1 h2 h3 =>
    simp at hp
    rcases hp with rfl | rfl
    · exact absurd h1 (by decide)
    · exact absurd h3 (by unfold Cont; decide)
  | three b c d h1 h2 h3 h4 =>
    simp at hp
    rcases hp with rfl | rfl | rfl
    · exact absurd h1 (by decide)
    · exact absurd h3 (by unfold Cont; decide)
    · exact absurd h4 (by unfold Cont; decide)
  | four b c d e h1 h2 h3 h4 h5 =>
    simp at hp
    rcases hp with rfl | rfl | rfl | rfl
    · exact absurd h1 (by decide)
    · exact absurd h3 (by unfold Cont; decide)
    · exact absurd h4 (by unfold Cont; decide)
    · exact absurd h5 (by unfold Cont; decide)

theorem line_back (l : Str) (h : IsLine l) : Str.ofStdString (Str.str l) = .ok l :=
  Str.ofStdString_str l fun c hc => (h c hc).1

/-- What a call on the queue stands for: `WriteLine` or `AppendLine` (the flag says which), or `ReadLine`. -/
def lineOp : LineCall × Bool → Op
  | (.add s, true) => .writeLine s
  | (.add s, false) => .appendLine s
  | (.next, _) => .readLine 0x0A

/-- The results of the calls as those of `File` methods. -/
def lineOut : Option (List Chr) → Res Out
  | none => .ok .unit
  | some s => .ok (.str s)

theorem queue_run (cs : List (LineCall × Bool)) (hl : ∀ s b, (LineCall.add s, b) ∈ cs → IsLine s) :
    (∀ (q p : Nat) (c : List UInt8) (ls : List Str), (∀ l ∈ ls, IsLine l) → p ≤ c.length → c.drop p = ls.flatMap line →
      (run (ready q p c) (cs.map lineOp)).1 = (queue (some ls) (cs.map Prod.fst)).map lineOut) ∧
    ∀ (q : Nat) (c : List UInt8), (run (ended q c) (cs.map lineOp)).1 = (queue none (cs.map Prod.fst)).map lineOut := by
  induction cs with
  | nil => exact ⟨fun _ _ _ _ _ _ _ => rfl, fun _ _ => rfl⟩
  | cons x cs ih =>
    obtain ⟨ih1, ih2⟩ := ih fun s b h => hl s b (by simp [h])
    obtain ⟨call, b⟩ := x
    constructor
    · intro q p c ls hls hp hc
      cases call with
      | add s =>
        have hs := hl s b (by simp)
        have hop : step (ready q p c) (lineOp (.add s, b)) =
            (.ok .unit, ready (c.length + (line s).length) p (c ++ line s)) := by cases b <;> rfl
        simp only [List.map_cons, run, hop, queue]
        rw [ih1 _ p _ (ls ++ [s]) (by
            intro l hl'
            rcases List.mem_append.mp hl' with h | h
            · exact hls l h
            · simp at h; rw [h]; exact hs) (by simp; omega) (by
            rw [List.drop_append_of_le_length hp, hc]; simp)]
        rfl
      | next =>
        cases ls with
        | nil =>
          have h := readLine_end 0x0A q p c [] hc (by simp)
          have hop : step (ready q p c) (lineOp (.next, b)) = (.ok (.str []), ended p c) := by
            show ((readLine (ready q p c) 0x0A).1.map Out.str, (readLine (ready q p c) 0x0A).2) = _
            rw [h]; rfl
          simp only [List.map_cons, run, hop, queue, ih2]
          rfl
        | cons l ls =>
          have hline := hls l (by simp)
          have hd : c.drop p = Str.str l ++ (0x0A : UInt8) :: ls.flatMap line := by
            rw [hc]; simp [line]
          have h := readLine_found 0x0A q p c (Str.str l) (ls.flatMap line) hd (line_nonl l hline)
          have hop : step (ready q p c) (lineOp (.next, b)) = (.ok (.str l),
              ready (p + (Str.str l).length + 1) ((p + (Str.str l).length + 1 : Nat) : Int) c) := by
            show ((readLine (ready q p c) 0x0A).1.map Out.str, (readLine (ready q p c) 0x0A).2) = _
            rw [h, line_back l hline]; rfl
          have hlen := congrArg List.length hd
          simp only [List.length_drop, List.length_append, List.length_cons] at hlen
          simp only [List.map_cons, run, hop, queue]
          rw [ih1 _ (p + (Str.str l).length + 1) c ls (fun l' h' => hls l' (by simp [h'])) (by omega) (by
            rw [Nat.add_assoc, ← List.drop_drop, hd, List.drop_append]
            simp)]
          rfl
    · intro q c
      cases call with
      | add s =>
        have hop : step (ended q c) (lineOp (.add s, b)) = (.ok .unit, ended q c) := by cases b <;> rfl
        simp only [List.map_cons, run, hop, queue, ih2]
        rfl
      | next =>
        have hop : step (ended q c) (lineOp (.next, b)) = (.ok (.str []), ended q c) := rfl
        simp only [List.map_cons, run, hop, queue, ih2]
        rfl

/-- C73, every history of `WriteLine`, `AppendLine` and `ReadLine` in any order, on a file that holds lines already: the
calls return what those of a queue of lines return. -/
theorem C73_queue (old : List Str) (ho : ∀ l ∈ old, IsLine l) (cs : List (LineCall × Bool))
    (hl : ∀ s b, (LineCall.add s, b) ∈ cs → IsLine s) :
    ∃ s, create (some (old.flatMap line)) = (.ok (), s) ∧
      (run s (cs.map lineOp)).1 = (queue (some old) (cs.map Prod.fst)).map lineOut :=
  ⟨_, create_ready _, (queue_run cs hl).1 0 0 _ old ho (by omega) rfl⟩

theorem queue_add : ∀ (ls old : List Str) (cs : List LineCall),
    queue (some old) (ls.map .add ++ cs) = ls.map (fun _ => none) ++ queue (some (old ++ ls)) cs
  | [], old, cs => by simp
  | l :: ls, old, cs => by
    simp only [List.map_cons, List.cons_append, queue]
    rw [queue_add ls (old ++ [l]) cs]
    simp

theorem queue_none : ∀ k : Nat, queue none (List.replicate k .next) = List.replicate k (some [])
  | 0 => rfl
  | k + 1 => by rw [List.replicate_succ, queue, queue_none k, List.replicate_succ]

theorem queue_next : ∀ (ls : List Str) (k : Nat),
    queue (some ls) (List.replicate (ls.length + k) .next) = ls.map some ++ List.replicate k (some [])
  | [], 0 => rfl
  | [], k + 1 => by
    simp only [List.length_nil, Nat.zero_add, List.replicate_succ, queue, queue_none]
    rfl
  | l :: ls, k => by
    rw [show (l :: ls).length + k = (ls.length + k) + 1 by simp; omega, List.replicate_succ, queue, queue_next ls k]
    rfl

/-- C73. Lines written, then read: they come back in order after those the file held, and then the empty string. -/
theorem C73_round_trip (old new : List Str) (how : List Bool) (hw : how.length = new.length)
    (ho : ∀ l ∈ old, IsLine l) (hn : ∀ l ∈ new, IsLine l) (k : Nat) :
    ∃ s, create (some (old.flatMap line)) = (.ok (), s) ∧
      (run s ((new.zip how).map (fun x => if x.2 then .writeLine x.1 else .appendLine x.1) ++
        List.replicate ((old ++ new).length + k) (.readLine 0x0A))).1 =
      new.map (fun _ => .ok .unit) ++ (old ++ new).map (fun l => .ok (.str l)) ++ List.replicate k (.ok (.str [])) := by
  let cs : List (LineCall × Bool) := (new.zip how).map (fun x => (.add x.1, x.2)) ++
    List.replicate ((old ++ new).length + k) (.next, true)
  obtain ⟨s, h1, h2⟩ := C73_queue old ho cs (by
    intro l b h
    simp only [cs] at h
    rcases List.mem_append.mp h with h | h
    · obtain ⟨x, hx, he⟩ := List.mem_map.mp h
      simp only [Prod.mk.injEq, LineCall.add.injEq] at he
      rw [← he.1]
      exact hn _ (List.of_mem_zip hx).1
    · simp [List.mem_replicate] at h)
  refine ⟨s, h1, ?_⟩
  have e1 : cs.map lineOp = (new.zip how).map (fun x => if x.2 then .writeLine x.1 else .appendLine x.1) ++
      List.replicate ((old ++ new).length + k) (.readLine 0x0A) := by
    simp only [cs, List.map_append, List.map_map, List.map_replicate]
    congr 1
    apply List.map_congr_left
    rintro ⟨l, b⟩ _
    cases b <;> rfl
  have e2 : cs.map Prod.fst = new.map .add ++ List.replicate ((old ++ new).length + k) .next := by
    simp only [cs, List.map_append, List.map_map, List.map_replicate]
    congr 1
    have : (Prod.fst ∘ fun x : Str × Bool => (LineCall.add x.1, x.2)) = LineCall.add ∘ Prod.fst := rfl
    rw [this, ← List.map_map, List.map_fst_zip (by omega)]
  rw [e1, e2, queue_add, queue_next] at h2
  rw [h2]
  simp only [List.map_append, List.map_map, List.map_replicate, List.append_assoc]
  rfl

/-- Non-vacuity: three lines, one of them empty, one not ASCII. -/
example : IsLine c!"né" ∧ IsLine ([] : Str) ∧
    (run (ready 0 0 []) [.writeLine c!"né", .appendLine [], .readLine 0x0A, .writeLine c!"x", .readLine 0x0A, .readLine 0x0A,
      .readLine 0x0A]).1 = [.ok .unit, .ok .unit, .ok (.str c!"né"), .ok .unit, .ok (.str []), .ok (.str c!"x"),
      .ok (.str [])] := by
  refine ⟨?_, by intro c h; simp at h, by decide +kernel⟩
  intro c h
  simp at h
  rcases h with rfl | rfl
  · exact ⟨.one _ (by decide) (by decide), by decide⟩
  · exact ⟨.two _ _ (by decide) (by decide) (by unfold Cont; decide), by decide⟩

/-! ## C74 -/

/-- The bytes a call is asked to write. -/
def asked : Op → List UInt8
  | .write t => Str.str t
  | .append t => Str.str t
  | .writeLine t => Str.str t ++ b!"\n"
  | .appendLine t => Str.str t ++ b!"\n"
  | _ => []

/-- C74. A call other than `Erase`, in any state of the object, leaves the bytes of the file as they are and adds at the end
the data it was given, or nothing. -/
theorem C74_step (s : FileSys) (op : Op) (h : op ≠ .erase) :
    ∃ t, (t = [] ∨ t = asked op) ∧ (step s op).2.disk = s.disk.map (· ++ t) := by
  have same : ∀ d : Disk, d = s.disk → ∃ t, (t = [] ∨ t = asked op) ∧ d = s.disk.map (· ++ t) := by
    rintro d rfl
    exact ⟨[], .inl rfl, by cases s.disk <;> simp⟩
  cases op with
  | erase => exact absurd rfl h
  | «open» => exact same _ (openFile_disk s)
  | close => exact same _ (close_disk s)
  | isEof => exact same _ rfl
  | setPosition p => exact same _ (setPosition_disk s p)
  | getPosition => exact same _ rfl
  | read => exact same _ (readAll_disk s)
  | readLine d => exact same _ (readLine_disk s d)
  | write t => exact write_adds s _
  | writeLine t => exact write_adds s _
  | append t => exact append_adds s _
  | appendLine t => exact append_adds s _

/-- C74. In a program with any number of `File` objects of the file, as long as none calls `Erase`, the content at any time
begins with the content at any earlier time. -/
theorem C74_history (w : World) (as : List Act) (h : ∀ k, Act.call k .erase ∉ as) :
    ∃ t, (acts w as).disk = w.disk.map (· ++ t) := by
  induction as generalizing w with
  | nil => exact ⟨[], by show w.disk = _; cases w.disk <;> simp⟩
  | cons a as ih =>
    obtain ⟨t2, h2⟩ := ih (act w a) fun k hk => h k (by simp [hk])
    have h1 : ∃ t, (act w a).disk = w.disk.map (· ++ t) := by
      have same : ∀ d : Disk, d = w.disk → ∃ t, d = w.disk.map (· ++ t) := by
        rintro d rfl
        exact ⟨[], by cases w.disk <;> simp⟩
      cases a with
      | call k op =>
        unfold act
        simp only []
        split
        · exact same _ rfl
        · rename_i o _
          obtain ⟨t, -, ht⟩ := C74_step { o with disk := w.disk } op (by rintro rfl; exact h k (by simp))
          exact ⟨t, ht⟩
      | new =>
        unfold act
        have hd : (create w.disk).2.disk = w.disk := openFile_disk _
        simp only []
        split <;> rename_i e <;> rw [e] at hd <;> exact same _ hd
      | delete k => exact same _ rfl
    obtain ⟨t1, h1⟩ := h1
    refine ⟨t1 ++ t2, ?_⟩
    show (acts (act w a) as).disk = _
    rw [h2, h1]
    cases w.disk <;> simp

example : ∃ s, create (some b!"ab") = (.ok (), s) ∧
    (run s [.setPosition 0, .write c!"cd", .readLine 0x0A, .append c!"e"]).2.disk = some b!"abcd" := ⟨_, rfl, by decide +kernel⟩

/-! ## C75 -/

/-- C75, partial: on an open object whose stream is good, the data is added to the file. -/
theorem C75_good_partial (s : FileSys) (bs : List UInt8) (ho : s.isOpen = true) (hg : good s = true) :
    (write s bs).1 = .ok () ∧ (write s bs).2.disk = s.disk.map (· ++ bs) ∧ good (write s bs).2 = true ∧
    (append s bs).1 = .ok () ∧ (append s bs).2.disk = s.disk.map (· ++ bs) ∧ good (append s bs).2 = true := by
  obtain ⟨⟨o, p, e, f, b, cu⟩, d⟩ := s
  simp only at ho
  simp only [good, Bool.and_eq_true, Bool.not_eq_true'] at hg
  obtain ⟨⟨rfl, rfl⟩, rfl⟩ := hg
  subst ho
  exact ⟨rfl, rfl, rfl, rfl, rfl, rfl⟩

/-- C75, partial: the same on a closed object, whatever its bits, if the file can be opened. -/
theorem C75_closed_partial (s : FileSys) (c bs : List UInt8) (ho : s.isOpen = false) (hd : s.disk = some c) :
    (write s bs).1 = .ok () ∧ (write s bs).2.disk = some (c ++ bs) ∧ good (write s bs).2 = true ∧
    (append s bs).1 = .ok () ∧ (append s bs).2.disk = some (c ++ bs) ∧ good (append s bs).2 = true := by
  obtain ⟨⟨o, p, e, f, b, cu⟩, d⟩ := s
  simp only at ho hd
  subst ho; subst hd
  exact ⟨rfl, rfl, rfl, rfl, rfl, rfl⟩

/-- C75, partial: the same after `SetPosition` on an open object, whatever its bits. -/
theorem C75_setPosition_partial (s : FileSys) (p : Nat) (ho : s.isOpen = true) :
    (setPosition s p).1 = .ok () ∧ good (setPosition s p).2 = true ∧ (setPosition s p).2.isOpen = true := by
  obtain ⟨⟨o, q, e, f, b, cu⟩, d⟩ := s
  simp only at ho
  subst ho
  have hn : ¬ (p : Int) < 0 := by omega
  simp [setPosition, seekgBeg, clear, sentry, good, failed, hn]

/-- C75 is false as stated: on an open object whose stream is not good, writing does nothing, without an exception, and
the stream stays so. -/
theorem C75_dropped_fails (s : FileSys) (bs : List UInt8) (ho : s.isOpen = true) (hg : good s = false) :
    (write s bs).1 = .ok () ∧ (write s bs).2.disk = s.disk ∧ good (write s bs).2 = false ∧
    (append s bs).1 = .ok () ∧ (append s bs).2.disk = s.disk ∧ good (append s bs).2 = false := by
  have hg' : good (seekpEnd s) = false := by unfold seekpEnd; split <;> exact hg
  unfold write append ensureOpen
  simp only [ho, if_true]
  unfold put
  simp only [hg, hg', Bool.false_eq_true, if_false]
  refine ⟨trivial, trivial, by simp [good], trivial, seekpEnd_disk s, by simp [good]⟩

/-- C75 is false as stated: the stream is not good after `ReadLine` has read the last line, for every content of the file
and every number of lines already read. -/
theorem C75_after_end_fails (q p : Nat) (c a data : List UInt8) (h : c.drop p = a) (hd : (0x0A : UInt8) ∉ a) :
    let s := (readLine (ready q p c) 0x0A).2
    (write s data).1 = .ok () ∧ (write s data).2.disk = some c ∧
    (append s data).1 = .ok () ∧ (append s data).2.disk = some c := by
  rw [readLine_end 0x0A q p c a h hd]
  exact ⟨rfl, rfl, rfl, rfl⟩

/-- C75 is false as stated: `Open` on an open object throws nothing and makes the stream useless: writes are dropped and
`ReadLine` throws. -/
theorem C75_open_fails (s : FileSys) (data : List UInt8) (ho : s.isOpen = true) (he : s.eof = false) :
    (openFile s).1 = .ok () ∧ (write (openFile s).2 data).1 = .ok () ∧ (write (openFile s).2 data).2.disk = s.disk ∧
    (readLine (openFile s).2).1 = .error .runtimeError := by
  obtain ⟨⟨o, p, e, f, b, cu⟩, d⟩ := s
  simp only at ho he
  subst ho; subst he
  refine ⟨rfl, rfl, ?_, ?_⟩
  · simp [openFile, streamOpen, write, ensureOpen, put, good]
  · simp [openFile, streamOpen, readLine, ensureOpen, failed]

/-- Non-vacuity of C75: a program of three calls loses its data. -/
example : (run (ready 0 0 b!"a") [.readLine 0x0A, .write c!"b"]) =
    ([.ok (.str c!"a"), .ok .unit], ended 1 b!"a") := by decide +kernel

/-! ## C76 -/

/-- C76. What `Read` does on an open, good stream: it makes a `String` of a buffer that holds exactly the content, without
terminator. -/
theorem C76_exact (q : Nat) (p : Int) (c : List UInt8) : (readAll (ready q p c)).1 = Str.ofCStr c := by
  have hn : ¬ (c.length : Int) < 0 := by omega
  simp [readAll, ensureOpen, ready, seekgEnd, sentry, good, failed, bytes, tellg, seekgBeg, File.read, hn]

theorem decodeLoop_ub : ∀ (n : Nat) (c : List UInt8), (0 : UInt8) ∉ c → ∀ s, Str.decodeLoop n c ≠ .ok s
  | 0, _, _, _ => by simp [Str.decodeLoop]
  | n + 1, [], _, s => by simp [Str.decodeLoop, vecGet, bind, Except.bind]
  | n + 1, b :: c, h, s => by
    have hb : b ≠ 0 := by rintro rfl; simp at h
    rw [Str.decodeLoop]
    simp only [vecGet, bind, Except.bind]
    simp only [List.getElem?_cons_zero, beq_iff_eq, if_neg hb]
    cases hc : Str.decodeUtf8Char (b :: c) with
    | error e => simp
    | ok ch =>
      simp only []
      have ih := decodeLoop_ub n ((b :: c).drop ch.data.length) (fun hm => h (List.mem_of_mem_drop hm))
      cases hd : Str.decodeLoop n ((b :: c).drop ch.data.length) with
      | error e => simp
      | ok s' => exact absurd hd (ih s')

/-- C76 is false as stated: `Read` never returns the content. Without a NUL byte in the file it returns nothing at all ... -/
theorem C76_no_nul_fails (q : Nat) (p : Int) (c : List UInt8) (h : (0 : UInt8) ∉ c) :
    ∀ s, (readAll (ready q p c)).1 ≠ .ok s := by
  rw [C76_exact]
  exact decodeLoop_ub _ c h

/-- ... for text it is undefined behaviour: the buffer is read beyond its end ... -/
theorem C76_text_fails (q : Nat) (p : Int) (s : Str) (h : ∀ c ∈ s, Shape c.data) :
    (readAll (ready q p (Str.str s))).1 = .error .ub := by
  rw [C76_exact]
  have key : ∀ (n : Nat) (s : Str), (∀ c ∈ s, Shape c.data) → s.length < n → Str.decodeLoop n (Str.str s) = .error .ub := by
    intro n
    induction n with
    | zero => intro s _ hn; omega
    | succ n ih =>
      intro s hs hn
      cases s with
      | nil => rfl
      | cons c s =>
        have hc := hs c (by simp)
        have ih' := ih s (fun d hd => hs d (by simp [hd])) (by simp at hn; omega)
        have hp : Str.str (c :: s) = c.data ++ Str.str s := by
          rw [Str.str_shapes _ hs, Str.str_shapes _ (fun d hd => hs d (by simp [hd]))]
          simp
        rw [hp]
        rw [Str.decodeLoop_shape hc, ih']
        rfl
  apply key _ s h
  have : s.length ≤ (Str.str s).length := by
    rw [Str.str_shapes s h]
    clear key
    induction s with
    | nil => simp
    | cons c s ih =>
      have := ih fun d hd => h d (by simp [hd])
      have hc := h c (by simp)
      have : 0 < c.data.length := by generalize c.data = d at hc; cases hc <;> simp
      simp only [List.map_cons, List.flatten_cons, List.length_append, List.length_cons] at *
      omega
  omega

/-- ... and with a NUL byte it returns at most what stands before it. -/
theorem C76_nul_partial (q : Nat) (p : Int) (s : Str) (rest : List UInt8) (h : ∀ c ∈ s, Shape c.data) :
    (readAll (ready q p (Str.str s ++ 0 :: rest))).1 = .ok s := by
  rw [C76_exact, Str.str_shapes s h, Str.ofCStr_shapes _ (by
    intro d hd
    obtain ⟨c, hc, rfl⟩ := List.mem_map.mp hd
    exact h c hc)]
  rw [List.map_map]
  exact congrArg _ ((List.map_congr_left (fun _ _ => rfl)).trans (List.map_id s))

/-- C76. After the end was reached `Read` throws `std::length_error`, and from then on `ReadLine` throws. -/
theorem C76_after_end_fails (q : Nat) (c : List UInt8) :
    (readAll (ended q c)).1 = .error .memory ∧ (readLine (readAll (ended q c)).2).1 = .error .runtimeError := ⟨rfl, rfl⟩

example : (readAll (ready 0 0 b!"ab")).1 = .error .ub ∧ (readAll (ready 0 0 (b!"ab" ++ [0, 1]))).1 = .ok c!"ab" := by
  decide +kernel

/-! ## C87 -/

/-- C87. `Erase` empties the file, and after it the object is open and its stream is good, whatever the state was. -/
theorem C87_erase (s : FileSys) (c : List UInt8) (h : s.disk = some c) :
    (erase s).1 = .ok () ∧ (erase s).2.disk = some [] ∧ (erase s).2.isOpen = true ∧ good (erase s).2 = true := by
  obtain ⟨⟨o, p, e, f, b, cu⟩, d⟩ := s
  simp only at h
  subst h
  cases o <;> exact ⟨rfl, rfl, rfl, rfl⟩

/-- C87, partial: if nothing was read before, what is written afterwards is read from its beginning. -/
theorem C87_partial (q : Nat) (c a r : List UInt8) (ha : (0x0A : UInt8) ∉ a) :
    (readLine (write (erase (ready q 0 c)).2 (a ++ 0x0A :: r)).2).1 = Str.ofStdString a := by
  have e : (erase (ready q 0 c)).2 = ready 0 (0 : Nat) [] := rfl
  rw [e, write_ready]
  have := readLine_found 0x0A (([] : List UInt8).length + (a ++ 0x0A :: r).length) 0 ([] ++ (a ++ 0x0A :: r)) a r (by simp) ha
  exact congrArg Prod.fst this

theorem File.erase_exact (s : FileSys) (c : List UInt8) (h : s.disk = some c) : erase s = (.ok (), ready 0 s.cur []) := by
  obtain ⟨⟨o, p, e, f, b, cu⟩, d⟩ := s
  simp only at h
  subst h
  cases o <;> rfl

/-- C87, exactly, for every object: the read position survives `Erase`. Of what is written afterwards, a line is read from that
position on, up to the delimiter or the end; if the position is -1, because the end was reached before, `ReadLine` throws. -/
theorem C87_exact (s : FileSys) (c data : List UInt8) (d : UInt8) (h : s.disk = some c) :
    (∀ (p : Nat) (a r : List UInt8), s.cur = p → data.drop p = a ++ d :: r → d ∉ a →
      (readLine (write (erase s).2 data).2 d).1 = Str.ofStdString a) ∧
    (∀ p : Nat, s.cur = p → d ∉ data.drop p → (readLine (write (erase s).2 data).2 d).1 = Str.ofStdString (data.drop p)) ∧
    (s.cur < 0 → (readLine (write (erase s).2 data).2 d).1 = .error .runtimeError) := by
  rw [File.erase_exact s c h]
  simp only [write_ready, List.nil_append]
  refine ⟨fun p a r hp hd ha => ?_, fun p hp hd => ?_, fun hn => ?_⟩
  · rw [hp, readLine_found d _ p data a r hd ha]
  · rw [hp, readLine_end d _ p data _ rfl hd]
  · generalize s.cur = k at hn
    simp [readLine, ensureOpen, ready, failed, seekgBeg, clear, sentry, good, bytes, getLoop, File.get, hn]

/-- C87 is false as stated: the read position stays. A line written after `Erase` is not read if a longer one was read before,
and `ReadLine` throws if the end was reached before. -/
theorem C87_fails :
    (run (ready 0 0 []) [.writeLine c!"long line", .readLine 0x0A, .erase, .writeLine c!"new", .readLine 0x0A]).1 =
      [.ok .unit, .ok (.str c!"long line"), .ok .unit, .ok .unit, .ok (.str [])] ∧
    ∀ (q : Nat) (c data : List UInt8),
      (readLine (write (erase (ended q c)).2 data).2).1 = .error .runtimeError ∧
      (readLine (close (ended q c))).1 = .error .runtimeError := by
  refine ⟨by decide +kernel, fun q c data => ⟨?_, rfl⟩⟩
  simp [erase, close, ended, streamClose, openFile, streamOpen, clear, write, ensureOpen, put, good, bytes, readLine, failed,
    seekgBeg, sentry, getLoop, File.get]

/-! ## C88 -/

/-- C88. `SetPosition` to a position that `GetPosition` returned makes `ReadLine` return the line at that position again,
whatever happened to the object since (it may have reached the end), as long as the file was not erased. -/
theorem C88_restore (s : FileSys) (p : Nat) (c a r more : List UInt8) (ho : s.isOpen = true) (hd : s.disk = some (c ++ more))
    (h : c.drop p = a ++ 0x0A :: r) (ha : (0x0A : UInt8) ∉ a) :
    (setPosition s p).1 = .ok () ∧ (readLine (setPosition s p).2).1 = Str.ofStdString a ∧
    getPosition (setPosition s p).2 = p := by
  obtain ⟨⟨o, q, e, f, b, cu⟩, d⟩ := s
  simp only at ho hd
  subst ho; subst hd
  have hs : setPosition ⟨⟨true, q, e, f, b, cu⟩, some (c ++ more)⟩ p = (.ok (), ready p p (c ++ more)) := by
    have hn : ¬ (p : Int) < 0 := by omega
    simp [setPosition, seekgBeg, clear, sentry, good, failed, ready, hn]
  have hp : p ≤ c.length := by
    rcases Nat.lt_or_ge c.length p with hlt | hge
    · rw [List.drop_eq_nil_of_le (by omega)] at h
      simp at h
    · exact hge
  rw [hs]
  refine ⟨rfl, ?_, rfl⟩
  have := readLine_found 0x0A p p (c ++ more) a (r ++ more)
    (by rw [List.drop_append_of_le_length hp, h]; simp) ha
  exact congrArg Prod.fst this

/-- C88 is false as stated at the end of the file: `GetPosition` returns -1 there, and `SetPosition` of that throws. -/
theorem C88_fails (q : Nat) (c : List UInt8) :
    getPosition (ended q c) = -1 ∧ (setPosition (ended q c) (getPosition (ended q c))).1 = .error .runtimeError := ⟨rfl, rfl⟩

example : (run (ready 0 0 []) [.writeLine c!"a", .writeLine c!"b", .readLine 0x0A, .getPosition, .readLine 0x0A, .readLine 0x0A,
    .setPosition 2, .readLine 0x0A]).1 = [.ok .unit, .ok .unit, .ok (.str c!"a"), .ok (.pos 2), .ok (.str c!"b"), .ok (.str []),
      .ok .unit, .ok (.str c!"b")] := by decide +kernel

end Caitlyn
