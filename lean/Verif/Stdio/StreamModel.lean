import Verif.Mem.Basic
import Verif.Stdlib.AllocModel
/-!
# Streams

`src/header/stdio/mod.rs` (`FILE` and the byte input and output functions), `src/header/stdio/getdelim.rs`, and the
buffered writers of `src/io/buffered.rs`.

* The kernel side of a descriptor is a file with contents and an offset. What `read` and `write` do is up to the kernel:
  each call may fail, or transfer any number of bytes (`read`: at least one if there is one). The answers are a
  parameter, over which the theorems quantify. A pipe or terminal is a descriptor that cannot seek; its contents are the
  bytes that will ever arrive. Nobody else changes the file. `O_APPEND` is not modelled.
* `io::Error::kind` of an error of the system is always `Other` (`src/io/error.rs`), so the branches for
  `ErrorKind::Interrupted` are never taken and are left out.
* Streams are byte oriented (`try_set_byte_orientation_unlocked` succeeds), and the caller holds the lock.
* `Vec::with_capacity(n)` has capacity `n`.
* Outer `none` = a fault or panic, or the call does not return.
-/

namespace Verif.Stdio
open Verif.Mem Verif.Stdlib

/-! ## The kernel -/

/-- What the kernel answers to a `read` or `write`: an error, or how many bytes it is ready to transfer. -/
inductive Answer where
  | err
  | upTo (n : Nat)

/-- A descriptor. `log` is the sequence of all bytes it accepted by `write`. -/
structure Kernel where
  data : List UInt8
  pos : Nat
  seekable : Bool
  log : List UInt8
  time : Nat
  answer : Nat → Answer

/-- `data` with `l` written at `pos`; a gap is filled with zeros. -/
def overwrite (data : List UInt8) (pos : Nat) (l : List UInt8) : List UInt8 :=
  if l = [] then data
  else data.take pos ++ List.replicate (pos - data.length) 0 ++ l ++ data.drop (pos + l.length)

/-- `read` of up to `len` bytes; `none` = an error. -/
def Kernel.read (k : Kernel) (len : Nat) : Option (List UInt8) × Kernel :=
  match k.answer k.time with
  | .err => (none, { k with time := k.time + 1 })
  | .upTo n =>
    let l := (k.data.drop k.pos).take (min len (n + 1))
    (some l, { k with pos := k.pos + l.length, time := k.time + 1 })

/-- `write`; `none` = an error, otherwise the number of bytes accepted. -/
def Kernel.write (k : Kernel) (buf : List UInt8) : Option Nat × Kernel :=
  match k.answer k.time with
  | .err => (none, { k with time := k.time + 1 })
  | .upTo n =>
    let l := buf.take n
    (some l.length,
      { k with data := overwrite k.data k.pos l, pos := k.pos + l.length, log := k.log ++ l, time := k.time + 1 })

/-- `lseek`; `none` = an error. The offset of a file is below `2^63`. -/
def Kernel.lseek (k : Kernel) (off whence : Int) : Option Int × Kernel :=
  let base : Int := if whence = 0 then 0 else if whence = 1 then k.pos else k.data.length
  let new := base + off
  if k.seekable ∧ 0 ≤ whence ∧ whence ≤ 2 ∧ 0 ≤ new ∧ new < 2 ^ 63 then (some new, { k with pos := new.toNat })
  else (none, k)

/-! ## Writers -/

/-- `BufWriter` (`src/io/buffered.rs:302-309`): contents and capacity of the buffer. -/
structure BufWriter where
  buf : List UInt8
  cap : Nat

/-- The loop of `flush_buf` (`src/io/buffered.rs:415-434`): success, what remains in the buffer, and the descriptor. -/
def flushLoop (k : Kernel) (buf : List UInt8) : Bool × List UInt8 × Kernel :=
  if _h : buf = [] then (true, [], k)
  else
    match k.write buf with
    | (none, k) => (false, buf, k)
    | (some 0, k) => (false, buf, k)
    | (some (n + 1), k) => flushLoop k (buf.drop (n + 1))
termination_by buf.length
decreasing_by
  simp only [List.length_drop]
  have := List.length_pos_iff.2 _h
  omega

/-- `BufWriter::flush_buf` (`src/io/buffered.rs:410-440`), and `flush` (`:510-512`): `File::flush` does nothing. -/
def BufWriter.flush (w : BufWriter) (k : Kernel) : Bool × BufWriter × Kernel :=
  let (ok, buf, k) := flushLoop k w.buf
  (ok, { w with buf }, k)

/-- The end of `BufWriter::write` (`src/io/buffered.rs:501-508`). -/
def BufWriter.put (w : BufWriter) (k : Kernel) (b : List UInt8) : Option Nat × BufWriter × Kernel :=
  if b.length ≥ w.cap then
    let (r, k) := k.write b
    (r, w, k)
  else (some b.length, { w with buf := w.buf ++ b }, k)

/-- `BufWriter::write` (`src/io/buffered.rs:492-509`); `none` = an error. -/
def BufWriter.write (w : BufWriter) (k : Kernel) (b : List UInt8) : Option Nat × BufWriter × Kernel :=
  let w := if w.cap = 0 then ⟨[], 8192⟩ else w
  if w.buf.length + b.length > w.cap then
    let (ok, w, k) := w.flush k
    if ok then w.put k b else (none, w, k)
  else w.put k b

/-- `memchr::memrchr(b'\n', buf)`, as the number of bytes up to and including the last newline. -/
def lastLine (b : List UInt8) : Nat := b.length - (b.reverse.takeWhile (· != 0x0A)).length

/-- `LineWriter` (`src/io/buffered.rs:603-606`). -/
structure LineWriter where
  inner : BufWriter
  needFlush : Bool

/-- `LineWriter::flush` (`src/io/buffered.rs:755-759`). -/
def LineWriter.flush (w : LineWriter) (k : Kernel) : Bool × LineWriter × Kernel :=
  let (ok, inner, k) := w.inner.flush k
  (ok, ⟨inner, if ok then false else w.needFlush⟩, k)

/-- `LineWriter::write` from the search for a newline on (`src/io/buffered.rs:726-753`). -/
def LineWriter.put (w : LineWriter) (k : Kernel) (b : List UInt8) : Option Nat × LineWriter × Kernel :=
  let i := lastLine b
  if i = 0 then
    let (r, inner, k) := w.inner.write k b
    (r, { w with inner }, k)
  else
    match w.inner.write k (b.take i) with
    | (none, inner, k) => (none, { w with inner }, k)
    | (some n, inner, k) =>
      let (ok, w, k) := LineWriter.flush ⟨inner, true⟩ k
      if ok = false ∨ n ≠ i then (some n, w, k)
      else
        match w.inner.write k (b.drop i) with
        | (some j, inner, k) => (some (n + j), { w with inner }, k)
        | (none, inner, k) => (some n, { w with inner }, k)

/-- `LineWriter::write` (`src/io/buffered.rs:721-753`). -/
def LineWriter.write (w : LineWriter) (k : Kernel) (b : List UInt8) : Option Nat × LineWriter × Kernel :=
  if w.needFlush then
    let (ok, w, k) := w.flush k
    if ok then w.put k b else (none, w, k)
  else w.put k b

/-- `FileInnerWriter` (`src/header/stdio/mod.rs:135-139`). -/
inductive Writer where
  | buf (w : BufWriter)
  | line (w : LineWriter)
  | unbuffered

/-- `FileInnerWriter::write` (`src/header/stdio/mod.rs:207-213`). -/
def Writer.write (w : Writer) (k : Kernel) (b : List UInt8) : Option Nat × Writer × Kernel :=
  match w with
  | .buf w =>
    let (r, w, k) := w.write k b
    (r, .buf w, k)
  | .line w =>
    let (r, w, k) := w.write k b
    (r, .line w, k)
  | .unbuffered =>
    let (r, k) := k.write b
    (r, .unbuffered, k)

/-- `FileInnerWriter::flush` (`src/header/stdio/mod.rs:215-221`). -/
def Writer.flush (w : Writer) (k : Kernel) : Bool × Writer × Kernel :=
  match w with
  | .buf w =>
    let (r, w, k) := w.flush k
    (r, .buf w, k)
  | .line w =>
    let (r, w, k) := w.flush k
    (r, .line w, k)
  | .unbuffered => (true, .unbuffered, k)

/-- The bytes in the buffer; their number is `pending` (`src/header/stdio/mod.rs:195-203`). -/
def Writer.pending : Writer → List UInt8
  | .buf w => w.buf
  | .line w => w.inner.buf
  | .unbuffered => []

/-! ## `FILE` -/

/-- `Buffer` (`src/header/stdio/mod.rs:60-67`): `Owned(None)`, `Owned(Some(_))` or `Borrowed(_)`, `Unbuffered`. A buffer
lent by the program is treated like one the stream owns. -/
inductive Buffer where
  | uninit
  | mem (l : List UInt8)
  | unbuffered

/-- `F_PERM`, `F_NORD`, `F_NOWR`, `F_EOF`, `F_ERR` (`src/header/stdio/constants.rs:10-14`). -/
def F_PERM : UInt32 := 1
@[inherit_doc F_PERM] def F_NORD : UInt32 := 4
@[inherit_doc F_PERM] def F_NOWR : UInt32 := 8
@[inherit_doc F_PERM] def F_EOF : UInt32 := 16
@[inherit_doc F_PERM] def F_ERR : UInt32 := 32

/-- `FILE` (`src/header/stdio/mod.rs:225-246`) with its descriptor. The last element of the vector `unget` is the first of
the list. -/
structure FILE where
  k : Kernel
  flags : UInt32
  buffer : Buffer
  readPos : Nat
  readSize : Nat
  unget : List UInt8
  writer : Writer

/-- `need_init` with the assignment in `fill_buf` (`src/header/stdio/mod.rs:70-78`, `:272-274`); `BUFSIZ` is 1024. -/
def FILE.initBuffer (f : FILE) : FILE :=
  match f.buffer with
  | .uninit => { f with buffer := .mem (List.replicate 1024 0) }
  | _ => f

/-- `deref` of the buffer (`src/header/stdio/mod.rs:84-90`). -/
def Buffer.bytes : Buffer → List UInt8
  | .mem l => l
  | _ => []

/-- The buffer after a `read` into it. -/
def Buffer.fill (b : Buffer) (l : List UInt8) : Buffer :=
  match b with
  | .mem old => .mem (l ++ old.drop l.length)
  | b => b

/-- The read in `fill_buf` (`src/header/stdio/mod.rs:275-288`): success, and the stream. -/
def FILE.refill (f : FILE) : Bool × FILE :=
  if f.readPos = f.readSize then
    match f.k.read f.buffer.bytes.length with
    | (none, k) => (false, { f with k, flags := f.flags ||| F_ERR })
    | (some [], k) => (true, { f with k, flags := f.flags ||| F_EOF, readSize := 0, readPos := 0 })
    | (some (b :: l), k) =>
      (true, { f with k, buffer := f.buffer.fill (b :: l), readSize := (b :: l).length, readPos := 0 })
  else (true, f)

/-- `fill_buf` (`src/header/stdio/mod.rs:271-290`): the buffered bytes, or an error. Outer `none`: the slice is out of
range, a panic. -/
def FILE.fillBuf (f : FILE) : Option (Option (List UInt8) × FILE) :=
  match f.initBuffer.refill with
  | (false, f) => some (none, f)
  | (true, f) =>
    if f.readPos ≤ f.readSize ∧ f.readSize ≤ f.buffer.bytes.length then
      some (some ((f.buffer.bytes.take f.readSize).drop f.readPos), f)
    else none

/-- `consume` (`src/header/stdio/mod.rs:291-293`). -/
def FILE.consume (f : FILE) (i : Nat) : FILE := { f with readPos := min (f.readPos + i) f.readSize }

/-- `read` (`src/header/stdio/mod.rs:249-267`) into a slice of `n` bytes: the bytes, or an error. -/
def FILE.read (f : FILE) (n : Nat) : Option (Option (List UInt8) × FILE) :=
  let u := min n f.unget.length
  if u ≠ 0 then some (some (f.unget.take u), { f with unget := f.unget.drop u })
  else do
    match ← f.fillBuf with
    | (none, f) => some (none, f)
    | (some buf, f) =>
      let l := buf.take n
      some (some l, f.consume l.length)

/-- `getc_unlocked`, `fgetc`, `getc` (`src/header/stdio/mod.rs:998-1009`, `:564-571`, `:981-984`); -1 is `EOF`. -/
def getc (f : FILE) : Option (Int × FILE) := do
  match ← f.read 1 with
  | (some (b :: _), f) => some (b.toNat, f)
  | (_, f) => some (-1, f)

/-- `ungetc` (`src/header/stdio/mod.rs:1524-1532`). -/
def ungetc (f : FILE) (c : Int32) : Int32 × FILE := (c, { f with unget := c.toUInt32.toUInt8 :: f.unget })

/-- The loop of `fread` (`src/header/stdio/mod.rs:779-785`): the number of bytes read, memory, and the stream. -/
def freadLoop (m : Mem UInt8) (ptr len read : Nat) (f : FILE) : Option (Nat × Mem UInt8 × FILE) :=
  if read < len then do
    match ← f.read (len - read) with
    | (none, f) => some (read, m, f)
    | (some [], f) => some (read, m, f)
    | (some (b :: l), f) =>
      let m ← writeN m (ptr + read) (b :: l)
      freadLoop m ptr len (read + (b :: l).length) f
  else some (read, m, f)
partial_fixpoint

/-- `fread` (`src/header/stdio/mod.rs:763-787`); `size * nitems` wraps. -/
def fread (m : Mem UInt8) (ptr : Nat) (size nitems : UInt64) (f : FILE) : Option (Nat × Mem UInt8 × FILE) :=
  if size = 0 ∨ nitems = 0 then some (0, m, f)
  else do
    let (read, m, f) ← freadLoop m ptr (size * nitems).toNat 0 f
    some (read / size.toNat, m, f)

/-- The loop of `fgets` (`src/header/stdio/mod.rs:613-645`). `none` inside = a read error; otherwise the address of the
next byte and whether anything was written. -/
def fgetsLoop (m : Mem UInt8) (out left : Nat) (wrote : Bool) (f : FILE) :
    Option (Option (Nat × Bool) × Mem UInt8 × FILE) :=
  if left = 0 then some (some (out, wrote), m, f)
  else do
    match ← f.fillBuf with
    | (none, f) => some (none, m, f)
    | (some [], f) => some (some (out, wrote), m, f)
    | (some (b :: l), f) =>
      let seg := (b :: l).take (min (b :: l).length left)
      match seg.findIdx? (· == 0x0A) with
      | some i => do
        let m ← writeN m out (seg.take (i + 1))
        some (some (out + (i + 1), true), m, f.consume (i + 1))
      | none => do
        let m ← writeN m out seg
        fgetsLoop m (out + seg.length) (left - seg.length) true (f.consume seg.length)
partial_fixpoint

/-- `fgets` (`src/header/stdio/mod.rs:590-653`): whether the buffer (or else a null pointer) is returned, memory, and the
stream. `max as usize` sign-extends. -/
def fgets (m : Mem UInt8) (s : Nat) (max : Int32) (f : FILE) : Option (Bool × Mem UInt8 × FILE) := do
  let n := max.toInt64.toUInt64.toNat
  let left := n - 1
  let u := min left f.unget.length
  let m ← writeN m s (f.unget.take u)
  match ← fgetsLoop m (s + u) (left - u) false { f with unget := f.unget.drop u } with
  | (none, m, f) => some (false, m, f)
  | (some (out, wrote), m, f) =>
    if n ≥ 1 then do
      let m ← store m out 0
      some (wrote, m, f)
    else some (wrote, m, f)

/-- `read_until` (`src/io/mod.rs:398-424`); inner `none` = a read error. -/
def readUntil (delim : UInt8) (acc : List UInt8) (f : FILE) : Option (Option (List UInt8) × FILE) := do
  match ← f.fillBuf with
  | (none, f) => some (none, f)
  | (some buf, f) =>
    match buf.findIdx? (· == delim) with
    | some i => some (some (acc ++ buf.take (i + 1)), f.consume (i + 1))
    | none =>
      let f := f.consume buf.length
      if buf.length = 0 then some (some (acc ++ buf), f) else readUntil delim (acc ++ buf) f
partial_fixpoint

/-- What `getdelim` leaves: return value, `*lineptr`, `*n`, heap and stream. -/
structure LineRes where
  ret : Int
  line : Nat
  n : Nat
  heap : Heap
  f : FILE

/-- The end of `getdelim` (`src/header/stdio/getdelim.rs:120-146`). -/
def storeLine (al : Allocator) (h : Heap) (line : Nat) (buf : List UInt8) (f : FILE) : Option LineRes :=
  let n := buf.length + 1
  let r := realloc al h line n
  if r.1 = 0 then some ⟨-1, 0, n, { r.2 with errno := some .enomem }, f⟩
  else do
    let m ← writeN r.2.mem r.1 buf
    let m ← store m (r.1 + buf.length) 0
    some ⟨buf.length, r.1, n, { r.2 with mem := m }, f⟩

/-- `getdelim` (`src/header/stdio/getdelim.rs:58-147`), with pointers that are not null and a delimiter in range.
`getline` (`:24-31`) is the case of a newline. Lines longer than `SSIZE_MAX` are left out. -/
def getdelim (al : Allocator) (h : Heap) (line n : Nat) (delim : UInt8) (f : FILE) : Option LineRes :=
  if f.flags &&& F_EOF ≠ 0 ∨ f.flags &&& F_ERR ≠ 0 then some ⟨-1, line, n, h, f⟩
  else do
    match ← readUntil delim [] f with
    | (none, f) => some ⟨-1, line, n, h, { f with flags := f.flags &&& F_ERR }⟩
    | (some buf, f) =>
      if buf = [] then some ⟨-1, line, n, h, { f with flags := f.flags &&& F_EOF }⟩
      else if buf.getLast? = some delim then storeLine al h line buf { f with flags := f.flags &&& F_EOF }
      else storeLine al h line buf f

/-- `FILE::write` (`src/header/stdio/mod.rs:297-305`). -/
def FILE.write (f : FILE) (b : List UInt8) : Option Nat × FILE :=
  match f.writer.write f.k b with
  | (some n, writer, k) => (some n, { f with writer, k })
  | (none, writer, k) => (none, { f with writer, k, flags := f.flags ||| F_ERR })

/-- `FILE::flush` (`src/header/stdio/mod.rs:306-314`). -/
def FILE.flush (f : FILE) : Bool × FILE :=
  match f.writer.flush f.k with
  | (true, writer, k) => (true, { f with writer, k })
  | (false, writer, k) => (false, { f with writer, k, flags := f.flags ||| F_ERR })

/-- `putc_unlocked`, `fputc`, `putc` (`src/header/stdio/mod.rs:1212-1221`, `:735-742`, `:1195-1198`). -/
def putc (f : FILE) (c : Int32) : Int32 × FILE :=
  match f.write [c.toUInt32.toUInt8] with
  | (none, f) => (-1, f)
  | (some 0, f) => (-1, f)
  | (some (_ + 1), f) => (c, f)

/-- The loop of `fwrite` (`src/header/stdio/mod.rs:968-974`), and `write_all` (`src/io/mod.rs:1754-1769`): the bytes not
accepted. -/
def writeLoop (f : FILE) (b : List UInt8) : List UInt8 × FILE :=
  if _h : b = [] then ([], f)
  else
    match f.write b with
    | (none, f) => (b, f)
    | (some 0, f) => (b, f)
    | (some (n + 1), f) => writeLoop f (b.drop (n + 1))
termination_by b.length
decreasing_by
  simp only [List.length_drop]
  have := List.length_pos_iff.2 _h
  omega

/-- `fwrite` (`src/header/stdio/mod.rs:952-975`); `size * nitems` wraps. -/
def fwrite (m : Mem UInt8) (ptr : Nat) (size nitems : UInt64) (f : FILE) : Option (Nat × FILE) :=
  if size = 0 ∨ nitems = 0 then some (0, f)
  else do
    let b ← readN m ptr (size * nitems).toNat
    let (left, f) := writeLoop f b
    some ((b.length - left.length) / size.toNat, f)

/-- `fputs` (`src/header/stdio/mod.rs:748-757`) of the string `s` (`strlen` is modelled in `Verif.Str`). -/
def fputs (f : FILE) (s : List UInt8) : Int × FILE :=
  let (left, f) := writeLoop f s
  (if left = [] then 0 else -1, f)

/-- `puts` (`src/header/stdio/mod.rs:1235-1250`), for a given stream. -/
def puts (f : FILE) (s : List UInt8) : Int × FILE :=
  let (left, f) := writeLoop f s
  if left ≠ [] then (-1, f)
  else
    match f.write [0x0A] with
    | (none, f) => (-1, f)
    | (some _, f) => (0, f)

/-- `fflush` (`src/header/stdio/mod.rs:539-558`) of one stream. -/
def fflush (f : FILE) : Int × FILE :=
  match f.flush with
  | (true, f) => (0, f)
  | (false, f) => (-1, f)

/-- `fclose` (`src/header/stdio/mod.rs:484-503`): return value, whether the stream's storage is released, and the
stream. `closeOk` says whether `close` succeeds. -/
def fclose (f : FILE) (closeOk : Bool) : Int × Bool × FILE :=
  let (ok, f) := f.flush
  (if ok && closeOk then 0 else 1, f.flags &&& F_PERM = 0, f)

/-- `fseek_locked` (`src/header/stdio/mod.rs:866-888`), `fseeko`, `fseek`. Offsets are below `2^62` in absolute value, so
that the subtraction does not wrap. -/
def fseek (f : FILE) (off whence : Int) : Int × FILE :=
  let off := if whence = 1 then off - (f.readSize - f.readPos : Nat) else off
  match f.flush with
  | (false, f) => (-1, f)
  | (true, f) =>
    match f.k.lseek off whence with
    | (none, k) => (-1, { f with k })
    | (some _, k) =>
      (0, { f with k, flags := f.flags &&& ~~~ (F_EOF ||| F_ERR), readPos := 0, readSize := 0, unget := [] })

/-- `ftell_locked` (`src/header/stdio/mod.rs:915-924`), `ftello`, `ftell`. -/
def ftell (f : FILE) : Int × FILE :=
  match f.k.lseek 0 1 with
  | (none, k) => (-1, { f with k })
  | (some pos, k) =>
    (pos - (f.readSize - f.readPos : Nat) - f.unget.length + f.writer.pending.length, { f with k })

/-- `clearerr` (`src/header/stdio/mod.rs:406-409`). -/
def clearerr (f : FILE) : FILE := { f with flags := f.flags &&& ~~~ (F_EOF ||| F_ERR) }

/-- `feof` (`src/header/stdio/mod.rs:519-522`). -/
def feof (f : FILE) : UInt32 := f.flags &&& F_EOF

/-- `ferror` (`src/header/stdio/mod.rs:528-531`). -/
def ferror (f : FILE) : UInt32 := f.flags &&& F_ERR

/-- `to_unbuffered`, `to_line_buffered`, `to_byte_buffered` (`src/header/stdio/mod.rs:142-169`) chosen by the mode of
`setvbuf`; `to_unbuffered` writes the buffer out and drops what cannot be written. -/
def Writer.convert (w : Writer) (k : Kernel) (mode : Int) : Writer × Kernel :=
  if mode = 2 then
    match w with
    | .buf w => (.unbuffered, (w.flush k).2.2)
    | .line w => (.unbuffered, (w.inner.flush k).2.2)
    | .unbuffered => (.unbuffered, k)
  else if mode = 1 then
    match w with
    | .buf w => (.line ⟨w, w.buf ≠ []⟩, k)
    | .line w => (.line w, k)
    | .unbuffered => (.line ⟨⟨[], 1024⟩, false⟩, k)
  else if mode = 0 then
    match w with
    | .buf w => (.buf w, k)
    | .line w => (.buf w.inner, k)
    | .unbuffered => (.buf ⟨[], 8192⟩, k)
  else (w, k)

/-- `set_capacity` (`src/header/stdio/mod.rs:177-183`). -/
def Writer.setCapacity (w : Writer) (cap : Nat) : Writer :=
  match w with
  | .buf _ => .buf ⟨[], cap⟩
  | .line w => .line { w with inner := ⟨[], cap⟩ }
  | .unbuffered => .unbuffered

/-- `setvbuf` (`src/header/stdio/mod.rs:1363-1398`); `given` is the contents of the buffer if one is given. `F_SVB` is
not modelled. -/
def setvbuf (f : FILE) (given : Option (List UInt8)) (mode : Int) (size : Nat) : FILE :=
  let size := if size = 0 then 1024 else size
  let buffer : Buffer := if mode ≠ 2 then .mem (given.getD (List.replicate size 0)) else .unbuffered
  let (w, k) := f.writer.convert f.k mode
  { f with buffer, k, writer := w.setCapacity size }

/-- `_fdopen` (`src/header/stdio/helpers.rs:52-94`): a new stream on a descriptor. -/
def fdopen (k : Kernel) (flags : UInt32) : FILE :=
  { k, flags, buffer := .uninit, readPos := 0, readSize := 0, unget := [], writer := .buf ⟨[], 8192⟩ }

/-- `GlobalFile::new` (`src/header/stdio/default.rs:11-38`): the standard streams. -/
def standard (k : Kernel) (flags : UInt32) : FILE :=
  { k, flags := F_PERM ||| flags, buffer := .uninit, readPos := 0, readSize := 0, unget := [],
    writer := .line ⟨⟨[], 0⟩, false⟩ }

/-- The output streams of a process. -/
structure Streams where
  stdout : FILE
  stderr : FILE
  others : List FILE

/-- `fflush(NULL)` (`src/header/stdio/mod.rs:539-558`). -/
def fflushAll (s : Streams) : Int × Streams :=
  match fflush s.stdout with
  | (r, f) =>
    if r ≠ 0 then (-1, { s with stdout := f })
    else
      match fflush s.stderr with
      | (r, g) => (if r ≠ 0 then -1 else 0, { s with stdout := f, stderr := g })

/-- `flush_io_streams` (`src/header/stdio/mod.rs:1718-1725`), called by `exit` (`src/header/stdlib/mod.rs:385`). -/
def flushIoStreams (s : Streams) : Streams := { s with stdout := s.stdout.flush.2, stderr := s.stderr.flush.2 }

end Verif.Stdio
