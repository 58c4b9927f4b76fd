import Verif.Model.File
import Verif.Proofs.StrUtil
import Verif.Proofs.Safe

/-! # Lemmas about `File` -/

namespace Caitlyn
namespace File
open Caitlyn.Spec

/-- An open object whose stream is good, that reads at `p` next, of a file with content `c`. -/
def ready (q : Nat) (p : Int) (c : List UInt8) : FileSys := ⟨⟨true, q, false, false, false, p⟩, some c⟩

/-- An open object whose stream has reached the end of the file. -/
def ended (q : Nat) (c : List UInt8) : FileSys := ⟨⟨true, q, true, true, false, -1⟩, some c⟩

theorem getLoop_found (d : UInt8) (c : List UInt8) (p : Int) : ∀ (a r : List UInt8) (n q : Nat), d ∉ a →
    c.drop q = a ++ d :: r → a.length < n →
    getLoop d n (ready q p c) = (true, a, ready (q + a.length + 1) p c)
  | [], r, n, q, _, h, hn => by
    obtain ⟨m, rfl⟩ : ∃ m, n = m + 1 := ⟨n - 1, by simp at hn; omega⟩
    have hq : c[q]? = some d := by
      have := congrArg (·[0]?) h
      simpa using this
    simp [getLoop, get, ready, good, bytes, hq]
  | b :: a, r, n, q, hd, h, hn => by
    obtain ⟨m, rfl⟩ : ∃ m, n = m + 1 := ⟨n - 1, by simp at hn; omega⟩
    have hq : c[q]? = some b := by
      have := congrArg (·[0]?) h
      simpa using this
    have hb : b ≠ d := by rintro rfl; simp at hd
    have ht : c.drop (q + 1) = a ++ d :: r := by
      have := congrArg (List.drop 1) h
      simpa [List.drop_drop] using this
    have ih := getLoop_found d c p a r m (q + 1) (by simp_all) ht (by simp at hn; omega)
    have hg : get (ready q p c) = (some b, ready (q + 1) p c) := by
      simp [get, ready, good, bytes, hq]
    rw [getLoop, hg]
    simp only [if_neg hb, ih, List.length_cons]
    refine Prod.ext rfl (Prod.ext rfl ?_)
    show ready (q + 1 + a.length + 1) p c = _
    congr 1; omega

theorem getLoop_end (d : UInt8) (c : List UInt8) (p : Int) : ∀ (a : List UInt8) (n q : Nat), d ∉ a →
    c.drop q = a → a.length < n →
    getLoop d n (ready q p c) = (false, a, { ready (q + a.length) p c with eof := true, fail := true })
  | [], n, q, _, h, hn => by
    obtain ⟨m, rfl⟩ : ∃ m, n = m + 1 := ⟨n - 1, by simp at hn; omega⟩
    have hq : c[q]? = none := by
      have := congrArg (·[0]?) h
      simpa using this
    simp [getLoop, get, ready, good, bytes, hq]
  | b :: a, n, q, hd, h, hn => by
    obtain ⟨m, rfl⟩ : ∃ m, n = m + 1 := ⟨n - 1, by simp at hn; omega⟩
    have hq : c[q]? = some b := by
      have := congrArg (·[0]?) h
      simpa using this
    have hb : b ≠ d := by rintro rfl; simp at hd
    have ht : c.drop (q + 1) = a := by
      have := congrArg (List.drop 1) h
      simpa [List.drop_drop] using this
    have ih := getLoop_end d c p a m (q + 1) (by simp_all) ht (by simp at hn; omega)
    have hg : get (ready q p c) = (some b, ready (q + 1) p c) := by
      simp [get, ready, good, bytes, hq]
    rw [getLoop, hg]
    simp only [if_neg hb, ih, List.length_cons]
    refine Prod.ext rfl (Prod.ext rfl ?_)
    show ({ ready (q + 1 + a.length) p c with eof := true, fail := true } : FileSys) = _
    rw [show q + 1 + a.length = q + (a.length + 1) by omega]

theorem seek_ready (q p : Nat) (c : List UInt8) : seekgBeg (clear (ready q p c)) p = ready p p c := by
  simp [seekgBeg, clear, ready, sentry, good, failed]

/-- `ReadLine` when there is a delimiter: the bytes before it; reading goes on behind it. -/
theorem readLine_found (d : UInt8) (q p : Nat) (c a r : List UInt8) (h : c.drop p = a ++ d :: r) (hd : d ∉ a) :
    readLine (ready q p c) d = (Str.ofStdString a, ready (p + a.length + 1) ((p + a.length + 1 : Nat) : Int) c) := by
  have hl : a.length < c.length + 1 := by
    have := congrArg List.length h
    simp at this; omega
  have hg := getLoop_found d c p a r (c.length + 1) p hd h hl
  unfold readLine ensureOpen
  have h1 : (ready q p c).isOpen = true := rfl
  have h2 : (ready q p c).eof = false := rfl
  have h3 : failed (ready q p c) = false := rfl
  have h4 : (ready q p c).cur = (p : Int) := rfl
  have h5 : (bytes (ready p p c)).length = c.length := rfl
  simp only [h1, if_true, h2, h3, h4, Bool.false_eq_true, if_false, seek_ready, h5, hg, Bool.true_or]
  rfl

/-- `ReadLine` when there is none: the rest; the stream is at its end. -/
theorem readLine_end (d : UInt8) (q p : Nat) (c a : List UInt8) (h : c.drop p = a) (hd : d ∉ a) :
    readLine (ready q p c) d = (Str.ofStdString a, ended (p + a.length) c) := by
  have hl : a.length < c.length + 1 := by
    have := congrArg List.length h
    simp at this; omega
  have hg := getLoop_end d c p a (c.length + 1) p hd h hl
  unfold readLine ensureOpen
  have h1 : (ready q p c).isOpen = true := rfl
  have h2 : (ready q p c).eof = false := rfl
  have h3 : failed (ready q p c) = false := rfl
  have h4 : (ready q p c).cur = (p : Int) := rfl
  have h5 : (bytes (ready p p c)).length = c.length := rfl
  simp only [h1, if_true, h2, h3, h4, Bool.false_eq_true, if_false, seek_ready, h5, hg, Bool.or_true]
  rfl

theorem readLine_ended (d : UInt8) (q : Nat) (c : List UInt8) : readLine (ended q c) d = (.ok [], ended q c) := rfl

theorem put_ready (q : Nat) (p : Int) (c bs : List UInt8) :
    put (ready q p c) bs = ready (c.length + bs.length) p (c ++ bs) := rfl

theorem write_ready (q : Nat) (p : Int) (c bs : List UInt8) :
    write (ready q p c) bs = (.ok (), ready (c.length + bs.length) p (c ++ bs)) := rfl

theorem append_ready (q : Nat) (p : Int) (c bs : List UInt8) :
    append (ready q p c) bs = (.ok (), ready (c.length + bs.length) p (c ++ bs)) := rfl

theorem write_ended (q : Nat) (c bs : List UInt8) : write (ended q c) bs = (.ok (), ended q c) := rfl
theorem append_ended (q : Nat) (c bs : List UInt8) : append (ended q c) bs = (.ok (), ended q c) := rfl

theorem create_ready (c : List UInt8) : create (some c) = (.ok (), ready 0 0 c) := rfl

/-! ### Every step keeps the content -/

theorem sentry_disk (s : FileSys) : (sentry s).disk = s.disk := by unfold sentry; split <;> rfl

theorem seekgBeg_disk (s : FileSys) (o : Int) : (seekgBeg s o).disk = s.disk := by
  unfold seekgBeg
  simp only []
  repeat' split
  all_goals simp [sentry_disk]

theorem seekgEnd_disk (s : FileSys) : (seekgEnd s).disk = s.disk := by
  unfold seekgEnd
  simp only []
  split <;> simp [sentry_disk]

theorem seekpEnd_disk (s : FileSys) : (seekpEnd s).disk = s.disk := by unfold seekpEnd; split <;> rfl

theorem tellg_disk (s : FileSys) : (tellg s).2.disk = s.disk := by
  unfold tellg
  simp only []
  split <;> simp [sentry_disk]

theorem get_disk (s : FileSys) : (get s).2.disk = s.disk := by
  unfold get
  split
  · split <;> rfl
  · rfl

theorem read_disk (s : FileSys) (n : Nat) : (read s n).2.disk = s.disk := by
  unfold read
  split
  · simp only []; split <;> rfl
  · rfl

theorem getLoop_disk (d : UInt8) : ∀ (n : Nat) (s : FileSys), (getLoop d n s).2.2.disk = s.disk
  | 0, _ => rfl
  | n + 1, s => by
    have hg := get_disk s
    rw [getLoop]
    split
    · rename_i h; rw [h] at hg; exact hg
    · rename_i b s' h
      rw [h] at hg
      split
      · exact hg
      · simp only []
        rw [getLoop_disk d n s']; exact hg

theorem streamOpen_disk (s : FileSys) : (streamOpen s).disk = s.disk := by
  unfold streamOpen
  split
  · rfl
  · split <;> simp_all [clear]

theorem openFile_disk (s : FileSys) : (openFile s).2.disk = s.disk := by
  unfold openFile
  simp only []
  split <;> exact streamOpen_disk s

theorem ensureOpen_disk (s : FileSys) : (ensureOpen s).2.disk = s.disk := by
  unfold ensureOpen
  split
  · rfl
  · exact openFile_disk s

theorem close_disk (s : FileSys) : (close s).disk = s.disk := by unfold close; split <;> rfl

theorem readAll_disk (s : FileSys) : (readAll s).2.disk = s.disk := by
  have h := ensureOpen_disk s
  unfold readAll
  split
  · rename_i he; rw [he] at h; exact h
  · rename_i he
    rw [he] at h
    simp only []
    repeat' split
    all_goals simp [read_disk, seekgBeg_disk, tellg_disk, seekgEnd_disk]
    all_goals exact h

theorem readLine_disk (s : FileSys) (d : UInt8) : (readLine s d).2.disk = s.disk := by
  have h := ensureOpen_disk s
  unfold readLine
  split
  · rename_i he; rw [he] at h; exact h
  · rename_i he
    rw [he] at h
    simp only []
    repeat' split
    all_goals simp [tellg_disk, getLoop_disk, seekgBeg_disk, clear]
    all_goals exact h

theorem setPosition_disk (s : FileSys) (p : Int) : (setPosition s p).2.disk = s.disk := by
  unfold setPosition
  simp only []
  split <;> simp [seekgBeg_disk, clear]

/-- A write adds the data at the end, or nothing. -/
theorem put_disk (s : FileSys) (bs : List UInt8) :
    (put s bs).disk = if good s then s.disk.map (· ++ bs) else s.disk := by
  unfold put; split <;> rfl

theorem put_adds (s : FileSys) (bs : List UInt8) : ∃ t, (t = [] ∨ t = bs) ∧ (put s bs).disk = s.disk.map (· ++ t) := by
  rw [put_disk]
  split
  · exact ⟨bs, .inr rfl, rfl⟩
  · exact ⟨[], .inl rfl, by cases s.disk <;> simp⟩

theorem write_adds (s : FileSys) (bs : List UInt8) :
    ∃ t, (t = [] ∨ t = bs) ∧ (write s bs).2.disk = s.disk.map (· ++ t) := by
  have h := ensureOpen_disk s
  unfold write
  split
  · rename_i he; rw [he] at h
    exact ⟨[], .inl rfl, by rw [h]; cases s.disk <;> simp⟩
  · rename_i s' he; rw [he] at h
    have := put_adds s' bs
    rw [h] at this
    exact this

theorem append_adds (s : FileSys) (bs : List UInt8) :
    ∃ t, (t = [] ∨ t = bs) ∧ (append s bs).2.disk = s.disk.map (· ++ t) := by
  have h := ensureOpen_disk s
  unfold append
  split
  · rename_i he; rw [he] at h
    exact ⟨[], .inl rfl, by rw [h]; cases s.disk <;> simp⟩
  · rename_i s' he; rw [he] at h
    have := put_adds (seekpEnd s') bs
    rw [seekpEnd_disk, h] at this
    exact this

end File
end Caitlyn
