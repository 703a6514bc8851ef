import Verif.WholeFile
/-!
# Text files: writing text, line buffering, `Path.read_text`, `Path.write_text`
-/

namespace Verif
open Py

/-- An encoding with an error handler, as the stream uses it (helpers.py 294-307: an `io.TextIOWrapper` over an `io.BytesIO`);
`none`: UnicodeEncodeError, UnicodeDecodeError (both are ValueErrors). Simplified: encodings without a state between two writes
(UTF-8 and the like; not UTF-16 with its byte order mark). -/
structure Codec where
  enc : Str → Option Bytes
  dec : Bytes → Option Str

/-- Universal newlines on reading (`newline=None`): CR LF and CR alone become LF. -/
def fromUniversal : Str → Str
  | [] => []
  | [c] => if c = '\r' then ['\n'] else [c]
  | c :: d :: t =>
    if c = '\r' then
      if d = '\n' then '\n' :: fromUniversal t else '\n' :: fromUniversal (d :: t)
    else c :: fromUniversal (d :: t)

/-- The write wrapper in text mode (fake_filesystem.py 4917-4952), for a file opened with `buffering=1` (`lb`, line 4662) or not.
`'\n'` is written as it is (the host is POSIX and `newline` not given). The stream's own `tell` empties the stream's pending
bytes, so that the stream holds all bytes after each call. -/
def textWrapper (cd : Codec) (lb : Bool) (h : Nat) (t : Str) : M Nat := do
  let H ← hget h
  let oldPos := H.pos
  match cd.enc t with
  | none => M.throw .valueError
  | some b => do
    rawWrite h b
    let newPos := oldPos + b.length
    let useLine := lb && decide ('\n' ∈ t)
    if (newPos : Int) - H.flushPos > H.bufferSize ∨ useLine = true then
      let flushAll := decide (b.length > H.bufferSize) || useLine
      if !flushAll then hmod h fun H => { H with buf := H.buf.take oldPos, pos := oldPos }
      tryFlush h oldPos
      if !flushAll then rawWrite h b
    if H.append then hmod h fun H => { H with readSeek := H.pos, readWhence := 0 }
    M.pure t.length

/-- `f.write(t)` of a text file object: attribute lookup (fake_filesystem.py 4999-5030), `_write_error` (5042-5051), and the write
wrapper. -/
def textWrite (cd : Codec) (lb : Bool) (h : Nat) (t : Str) : M Nat := do
  let s ← M.get
  let H := s.handles h
  if s.isLarge H.obj then M.throw .largeFile
  checkOpen h
  if H.update = false then hRaise h
  else textWrapper cd lb h t

/-- `f.read()` of a text file object opened for reading only: the rest of the file, decoded, with universal newlines. -/
def textRead (cd : Codec) (h : Nat) : M Str := do
  let b ← read h none
  match cd.dec b with
  | none => M.throw .valueError
  | some t => M.pure (fromUniversal t)

/-- `Path.read_text` (fake_pathlib.py 533-540). -/
def readText (cd : Codec) (p : Str) : M Str := do
  let h ← openPath p ⟨true, true, false, false, false, false⟩ none false false
  withFile h (textRead cd h)

/-- `Path.write_text` (fake_pathlib.py 555-577). -/
def writeText (cd : Codec) (p : Str) (t : Str) : M Nat := do
  let h ← openPath p ⟨false, false, true, true, false, false⟩ none false false
  withFile h (textWrite cd false h t)

end Verif
