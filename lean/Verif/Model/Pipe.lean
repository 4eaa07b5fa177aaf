import Verif.Model.Content
/-
Model of the goroutine of a multipart answer and of the pipe it writes to: /repo/static/fs.go:314-344, 353-362, with
`io.Pipe` (a write waits until its bytes were read or the pipe was closed; a read waits for a write or until it was closed),
`io.CopyN` and `mime/multipart` (one write for each part header and for the end).

The goroutine is the list of what it still does: writes to the pipe and uses of the content (`Seek`, `Read`), each of which
returns. `CopyN` reads the content in pieces of any size, and reads that give nothing are allowed. The reader takes any number
of bytes at a time.
-/
namespace Verif

/-- What the goroutine does: a write to the pipe, or a use of the content.  fs.go:326, 332, 337, 342. -/
inductive PipeAct where
  | write (b : Str)
  | use
  deriving DecidableEq, Repr

/-- fs.go:337 `io.CopyN(part, content, n)`, the content giving `b`: it is read and written in pieces. -/
inductive Copies : Str → List PipeAct → Prop
  | done : Copies [] []
  | nothing {b : Str} {acts : List PipeAct} : Copies b acts → Copies b (.use :: acts)
  | piece {p b : Str} {acts : List PipeAct} : p ≠ [] → Copies b acts → Copies (p ++ b) (.use :: .write p :: acts)

/-- fs.go:324-344: what the goroutine does for the ranges. A failed seek or a short read ends it. -/
inductive PartActs (c : Content) (boundary cType : Str) (size : Int) : Bool → List HttpRange → List PipeAct → Prop
  | close {first : Bool} : PartActs c boundary cType size first [] [.write (partClose boundary)]
  | noSeek {first : Bool} {ra : HttpRange} {t : List HttpRange} : c.seekable = false →
      PartActs c boundary cType size first (ra :: t) [.write (partHeader boundary first cType size ra), .use]
  | short {first : Bool} {ra : HttpRange} {t : List HttpRange} {acts : List PipeAct} : c.seekable = true →
      ((readAt c ra.start ra.length).length : Int) < ra.length → Copies (readAt c ra.start ra.length) acts →
      PartActs c boundary cType size first (ra :: t) (.write (partHeader boundary first cType size ra) :: .use :: acts)
  | full {first : Bool} {ra : HttpRange} {t : List HttpRange} {acts rest : List PipeAct} : c.seekable = true →
      ¬ ((readAt c ra.start ra.length).length : Int) < ra.length → Copies (readAt c ra.start ra.length) acts →
      PartActs c boundary cType size false t rest →
      PartActs c boundary cType size first (ra :: t)
        (.write (partHeader boundary first cType size ra) :: .use :: (acts ++ rest))

/-- The goroutine and the call of serveContent: what the goroutine has still to do and whether it runs, how many bytes CopyN
still wants, what it got, whether serveContent has returned, and whether the content was used after that.  fs.go:314-344, 353-362. -/
structure PipeSt where
  todo : List PipeAct
  alive : Bool
  need : Nat
  got : Str
  returned : Bool
  late : Bool
  deriving DecidableEq, Repr

/-- Steps of the two: the goroutine uses the content; `k` bytes of the write it is in are read; its write fails; it ends and
closes its side (fs.go:343, and 328, 333, 338 after errors); CopyN (or, for HEAD, nothing) is done and the deferred Close runs
(fs.go:320-322); CopyN finds the other side closed. -/
inductive PipeLbl where
  | use
  | move (k : Nat)
  | fail
  | finish
  | done
  | eof
  deriving DecidableEq, Repr

/-- fs.go:324-362: one step. -/
def pipeStep (s : PipeSt) : PipeLbl → Option PipeSt
  | .use =>
    match s.todo with
    | .use :: t => if s.alive then some { s with todo := t, late := s.late || s.returned } else none
    | _ => none
  | .move k =>
    match s.todo with
    | .write b :: t =>
      if s.alive ∧ s.returned = false ∧ 0 < k ∧ k ≤ s.need ∧ k ≤ b.length then
        some { s with todo := if k = b.length then t else .write (b.drop k) :: t, need := s.need - k, got := s.got ++ b.take k }
      else none
    | _ => none
  | .fail =>
    match s.todo with
    | .write _ :: _ => if s.alive ∧ s.returned then some { s with alive := false } else none
    | _ => none
  | .finish =>
    match s.todo with
    | [] => if s.alive then some { s with alive := false } else none
    | _ => none
  | .done => if s.returned = false ∧ s.need = 0 then some { s with returned := true } else none
  | .eof => if s.returned = false ∧ 0 < s.need ∧ s.alive = false then some { s with returned := true } else none

/-- A run of steps.  fs.go:324-362. -/
def pipeRun : PipeSt → List PipeLbl → Option PipeSt
  | s, [] => some s
  | s, l :: ls => (pipeStep s l).bind fun s => pipeRun s ls

/-- fs.go:314-324, 353-362: the goroutine was started, and CopyN wants `n` bytes (none for a HEAD request, fs.go:354). -/
def pipeInit (acts : List PipeAct) (n : Nat) : PipeSt := ⟨acts, true, n, [], false, false⟩

end Verif
