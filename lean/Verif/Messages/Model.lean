import Verif.Messages.Tables
import Verif.Stdio.PrintfModel
import Verif.Locale.Model
/-!
# Messages for errors and signals

`strerror`, `strerror_r`, `strsignal` (`src/header/string/mod.rs`), `perror` (`src/header/stdio/mod.rs`), `psignal` (`src/header/signal/mod.rs`), `src/header/err/mod.rs`
-/

namespace Verif.Messages
open Verif.Stdio

/-- The string that begins a buffer. -/
def cstr (buf : List UInt8) : List UInt8 := buf.takeWhile (· ≠ 0)

/-- Bytes stored at a place of a buffer. -/
def put (buf : List UInt8) (at_ : Nat) (s : List UInt8) : List UInt8 := buf.take at_ ++ s ++ buf.drop (at_ + s.length)

/-- `StringWriter` (`src/platform/mod.rs:145`): the buffer, the place and the room that is left. -/
structure Writer where
  buf : List UInt8
  pos : Nat
  left : Nat

/-- `StringWriter::write` (`src/platform/mod.rs:147-164`). -/
def Writer.write (w : Writer) (s : List UInt8) : Writer :=
  if w.left > 1 then
    let n := min s.length (w.left - 1)
    { buf := put (put w.buf w.pos (s.take n)) (w.pos + n) [0], pos := w.pos + n, left := w.left - n }
  else w

/-- `STRERROR_MAX` (`src/header/errno/mod.rs:317-344`): "Unknown error: " has 15 bytes and the largest number 10 digits. -/
def strerrorMax : Nat := strError.foldl (fun longest s => if s.length + 1 > longest then s.length + 1 else longest) (15 + 10 + 1)

/-- "Unknown error" -/
def unknownError : List UInt8 := [0x55, 0x6E, 0x6B, 0x6E, 0x6F, 0x77, 0x6E, 0x20, 0x65, 0x72, 0x72, 0x6F, 0x72]

/-- `errnum as usize`: an index. -/
def index (n : Int32) : Nat := if n.toInt < 0 then (n.toInt + 2 ^ 64).toNat else n.toInt.toNat

/-- `strerror_l` (`src/header/string/mod.rs:386-399`), `strerror` (`src/header/string/mod.rs:403-405`): the static buffer afterwards. The number is written with its sign in a piece of its own. -/
def strerror (buf : List UInt8) (errnum : Int32) : List UInt8 :=
  let w : Writer := ⟨buf, 0, strerrorMax⟩
  match strError[index errnum]? with
  | some e => (w.write e).buf
  | none => ((w.write (unknownError ++ [0x20])).write (signedString errnum.toInt)).buf

/-- `strerror_r` (`src/header/string/mod.rs:409-423`): the result, and the buffer of the caller. -/
def strerrorR (static : List UInt8) (errnum : Int32) (buf : List UInt8) : Int × List UInt8 :=
  let msg := strerror static errnum
  let len := (cstr msg).length
  if len ≥ buf.length then
    (34, if buf.length ≠ 0 then put (put buf 0 (msg.take (buf.length - 1))) (buf.length - 1) [0] else buf)
  else (0, put buf 0 (msg.take (len + 1)))

/-- `strsignal` (`src/header/string/mod.rs:617-624`). -/
def strsignal (n : Int32) : List UInt8 := (signalStrings[index n]?).getD (signalStrings.headD [])

/-- The writes to a descriptor, of which the kernel takes so many bytes each (`FileWriter::write`, `src/platform/mod.rs:96-102`, `src/platform/mod.rs:106-109`): what arrives. The result is ignored. -/
def writes (takes : Nat → Nat) : Nat → List (List UInt8) → List UInt8
  | _, [] => []
  | i, s :: l => s.take (takes i) ++ writes takes (i + 1) l

/-- `perror` (`src/header/stdio/mod.rs:1082-1102`): the pieces written to standard error; `none` is a null pointer. -/
def perrorPieces (errno : Int32) (s : Option (List UInt8)) : List (List UInt8) :=
  let msg := if 0 ≤ errno.toInt ∧ errno.toInt < strError.length then strError.getD errno.toInt.toNat [] else unknownError
  let plain := [msg, [0x0A]]
  match s with
  | none => plain
  | some s => if Locale.isUtf8 s then (if s ≠ [] then [s, [0x3A, 0x20], msg, [0x0A]] else plain) else plain

/-- What arrives. -/
def perror (takes : Nat → Nat) (errno : Int32) (s : Option (List UInt8)) : List UInt8 := writes takes 0 (perrorPieces errno s)

/-- `psignal` (`src/header/signal/mod.rs:850-870`): what is printed to standard error, and `errno`, which `fprintf` has set to something else. -/
def psignal (errno after : Int32) (sig : Int32) (pre : Option (List UInt8)) : List UInt8 × Int32 :=
  let description := if 0 ≤ sig.toInt then (signalStrings[sig.toInt.toNat]?).getD (signalStrings.headD []) else signalStrings.headD []
  let old := errno
  let out := match pre with
    | none => description ++ [0x0A]
    | some p => p ++ [0x3A, 0x20] ++ description ++ [0x0A]
  let _errno := after
  (out, old)

/-! ## `err.h` -/

/-- What the functions use: the sink (`none` = the null pointer), the callback, what has been written to each stream (0 is standard error), the calls of the callback, and the buffer of `strerror`. -/
structure St where
  sink : Option Nat
  onExit : Option Nat
  out : Nat → List UInt8
  called : List (Nat × Int32)
  static : List UInt8

/-- `err_set_file` (`src/header/err/mod.rs:43-53`). -/
def errSetFile (st : St) (fp : Option Nat) : St := match fp with
  | none => { st with sink := some 0 }
  | some f => { st with sink := some f }

/-- `err_set_exit` (`src/header/err/mod.rs:57-61`). -/
def errSetExit (st : St) (ef : Option Nat) : St := { st with onExit := ef }

/-- Some bytes written to a stream. -/
def St.print (st : St) (f : Nat) (s : List UInt8) : St := { st with out := fun i => if i = f then st.out i ++ s else st.out i }

/-- `display_message` (`src/header/err/mod.rs:172-215`): the program's name, the message as formatted by `printf` if there is a format, and the error. -/
def displayMessage (prog : List UInt8) (st : St) (code : Option Int32) (msg : Option (List UInt8)) : St :=
  let st := if st.sink = none then { st with sink := some 0 } else st
  let sink := st.sink.getD 0
  let st := st.print sink prog
  let st := match msg with
    | none => st
    | some m => (st.print sink [0x3A, 0x20]).print sink m
  let st := match code with
    | none => st
    | some c =>
      let b := strerror st.static c
      { st with static := b }.print sink ([0x3A, 0x20] ++ cstr b)
  st.print sink [0x0A]

/-- `err_exit` (`src/header/err/mod.rs:218-233`): the status with which the process ends, and the state before. `after` is `errno` after the message. -/
def errExit (prog : List UInt8) (st : St) (eval : Int32) (code : Option Int32) (after : Int32) (msg : Option (List UInt8)) : Int32 × St :=
  let st := displayMessage prog st code msg
  let st := match st.onExit with
    | none => st
    | some f => { st with called := st.called ++ [(f, code.getD after)] }
  (eval, st)

/-- `err`, `verr` (`src/header/err/mod.rs:70-73`, `src/header/err/mod.rs:128-133`). -/
def err (prog : List UInt8) (st : St) (errno after eval : Int32) (msg : Option (List UInt8)) : Int32 × St := errExit prog st eval (some errno) after msg

/-- `errc`, `verrc` (`src/header/err/mod.rs:82-84`, `src/header/err/mod.rs:137-139`). -/
def errc (prog : List UInt8) (st : St) (after eval code : Int32) (msg : Option (List UInt8)) : Int32 × St := errExit prog st eval (some code) after msg

/-- `errx`, `verrx` (`src/header/err/mod.rs:93-95`, `src/header/err/mod.rs:143-145`). -/
def errx (prog : List UInt8) (st : St) (after eval : Int32) (msg : Option (List UInt8)) : Int32 × St := errExit prog st eval none after msg

/-- `warn`, `vwarn` (`src/header/err/mod.rs:101-106`, `src/header/err/mod.rs:149-154`). -/
def warn (prog : List UInt8) (st : St) (errno : Int32) (msg : Option (List UInt8)) : St := displayMessage prog st (some errno) msg

/-- `warnc`, `vwarnc` (`src/header/err/mod.rs:112-116`, `src/header/err/mod.rs:158-162`). -/
def warnc (prog : List UInt8) (st : St) (code : Int32) (msg : Option (List UInt8)) : St := displayMessage prog st (some code) msg

/-- `warnx`, `vwarnx` (`src/header/err/mod.rs:122-126`, `src/header/err/mod.rs:166-170`). -/
def warnx (prog : List UInt8) (st : St) (msg : Option (List UInt8)) : St := displayMessage prog st none msg

end Verif.Messages
