import Verif.FileIO
/-!
# Lines and text: `readline`, `readlines`, `readinto`, `writelines`, iteration, `Path.read_text`, `Path.write_text`
-/

namespace Verif
open Py

namespace Bio

/-- The bytes up to and including the first newline (`BytesIO.readline`, standard library). -/
def line : Bytes → Bytes
  | [] => []
  | c :: cs => if c = 10 then [c] else c :: line cs

/-- `readline(n)`; `none` (or a negative number): no limit. -/
def readline (buf : Bytes) (pos : Nat) (n : Option Nat) : Bytes :=
  match n with
  | none => line (buf.drop pos)
  | some n => (line (buf.drop pos)).take n

/-- all lines (`BytesIO.readlines` without a limit): `readline` until it returns nothing -/
def lines : Nat → Bytes → List Bytes
  | 0, _ => []
  | k + 1, b => if b = [] then [] else line b :: lines k (b.drop (line b).length)

end Bio

/-- Any method whose name starts with `read`: attribute lookup (fake_filesystem.py 4999-5030), the stream's method `f` (which
gets the contents and the position and returns the result and the new position), in append mode through the read wrapper
(4835-4867). `z`: what `_read_error` (5032-5040) returns on Windows for a raw handle if the first argument is 0. -/
def readWith {α : Type} (h : Nat) (z : Option α) (f : Bytes → Nat → α × Nat) : M α := do
  let s ← M.get
  let H := s.handles h
  if s.isLarge H.obj then M.throw .largeFile
  checkOpen h
  if H.read = false then
    match z with
    | some a => if s.cfg.isWin ∧ H.rawIo then M.pure a else hRaise h
    | none => hRaise h
  else do
    syncIo h
    flush h
    if !s.cfg.isWin then M.modify fun s => s.setObj H.obj fun o => { o with atime := s.clock }
    let H ← hget h
    if H.append then
      match Bio.seek H.buf H.pos H.readSeek H.readWhence with
      | none => M.throw .valueError
      | some p => do
        let r := f H.buf p
        hmod h fun H => { H with readSeek := (r.2 : Nat), readWhence := 0, pos := H.buf.length }
        M.pure r.1
    else do
      let r := f H.buf H.pos
      hmod h fun H => { H with pos := r.2 }
      M.pure r.1

/-- `f.readline(n)` -/
def readline (h : Nat) (n : Option Nat) : M Bytes :=
  readWith h (if n = some 0 then some [] else none) fun buf p => (Bio.readline buf p n, p + (Bio.readline buf p n).length)

/-- `f.readlines()` -/
def readlines (h : Nat) : M (List Bytes) :=
  readWith h none fun buf p => (Bio.lines (buf.drop p).length (buf.drop p), p + (buf.drop p).length)

/-- `f.readinto(b)` for a buffer of `n` bytes: the bytes stored at its beginning (the number returned is their number) -/
def readinto (h : Nat) (n : Nat) : M Bytes :=
  readWith h none fun buf p => ((buf.drop p).take n, p + ((buf.drop p).take n).length)

/-- `next(f)` (fake_filesystem.py 5067-5070), and each step of `for line in f` (5062-5065): the stream's own iterator, without
looking at the file and without testing whether the file object is open; `none`: StopIteration. -/
def nextLine (h : Nat) : M (Option Bytes) := do
  let H ← hget h
  if H.read = false then hRaise h
  else do
    let l := Bio.line (H.buf.drop H.pos)
    hmod h fun H => { H with pos := H.pos + l.length }
    M.pure (if l = [] then none else some l)

/-- the stream's own `writelines`: one `write` after the other -/
def rawWriteAll (h : Nat) : List Bytes → M Unit
  | [] => M.pure ()
  | b :: bs => do
    rawWrite h b
    rawWriteAll h bs

/-- `f.writelines(bs)` for a list (fake_filesystem.py 4999-5030, 5042-5051): the write wrapper (4917-4952) around the stream's
`writelines`. -/
def writelines (h : Nat) (bs : List Bytes) : M Unit := do
  let s ← M.get
  let H := s.handles h
  if s.isLarge H.obj then M.throw .largeFile
  checkOpen h
  if H.update = false then
    if H.rawIo ∧ s.cfg.isWin ∧ bs = [] then M.pure () else hRaise h
  else do
    let H ← hget h
    let oldPos := H.pos
    rawWriteAll h bs
    let G ← hget h
    let newPos := G.pos
    if (newPos : Int) - H.flushPos > H.bufferSize then
      let flushAll := decide ((newPos : Int) - oldPos > H.bufferSize)
      if !flushAll then hmod h fun H => { H with buf := H.buf.take oldPos, pos := oldPos }
      tryFlush h oldPos
      if !flushAll then rawWriteAll h bs
    if H.append then hmod h fun H => { H with readSeek := H.pos, readWhence := 0 }

end Verif
