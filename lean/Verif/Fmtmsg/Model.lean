/-!
# `fmtmsg`

`src/header/fmtmsg/mod.rs`. Strings are the lists of their bytes before the NUL; `none` is a null pointer. `dprintf` is modelled by what its format,
`%s` eight times and a newline, gives, and by whether the descriptor takes it all.
-/

namespace Verif.Fmtmsg

/-- The surroundings: the value of `MSGVERB`, whether `/dev/console` can be opened, and for the two outputs how many bytes are taken before the write fails
(`none` = all). -/
structure World where
  msgverb : Option (List UInt8)
  console : Bool
  consoleLimit : Option Nat
  printLimit : Option Nat

/-- What the process has to do with it: the bytes written to the console and to standard error, the number of open descriptors, and whether cancellation
is enabled. -/
structure St where
  console : List UInt8
  stderr : List UInt8
  fds : Nat
  cancel : Bool
deriving DecidableEq

/-- The arguments. -/
structure Args where
  classification : UInt64
  label : Option (List UInt8)
  severity : Int32
  text : Option (List UInt8)
  action : Option (List UInt8)
  tag : Option (List UInt8)

/-- `strcolcmp` (`src/header/fmtmsg/mod.rs:74-87`): whether it gives 0. -/
def strcolcmp : List UInt8 → List UInt8 → Bool
  | [], [] => true
  | [], b :: _ => b = 0x3A
  | _ :: _, [] => false
  | a :: l, b :: s => if a = b then strcolcmp l s else false

/-- `msgs` (`src/header/fmtmsg/mod.rs:114-121`): "label", "severity", "text", "action", "tag". -/
def msgs : List (List UInt8) :=
  [[0x6C, 0x61, 0x62, 0x65, 0x6C], [0x73, 0x65, 0x76, 0x65, 0x72, 0x69, 0x74, 0x79], [0x74, 0x65, 0x78, 0x74], [0x61, 0x63, 0x74, 0x69, 0x6F, 0x6E], [0x74, 0x61, 0x67]]

/-- The inner loop (`src/header/fmtmsg/mod.rs:152-161`): `none` if the null pointer is reached. -/
def find (cmsg : List UInt8) : List (List UInt8) → Nat → Option Nat
  | [], _ => none
  | m :: l, i => if strcolcmp m cmsg then some i else find cmsg l (i + 1)

/-- `strchr(cmsg, ':')`. -/
def colon : List UInt8 → Option (List UInt8)
  | [] => none
  | b :: s => if b = 0x3A then some (b :: s) else colon s

theorem colon_lt {s r : List UInt8} (h : colon s = some r) : r.tail.length < s.length := by
  induction s with
  | nil => cases h
  | cons b s ih =>
    unfold colon at h
    split at h
    · cases h
      simp
    · have := ih h
      rw [List.length_cons]
      omega

/-- The loop over `MSGVERB` (`src/header/fmtmsg/mod.rs:150-173`). -/
def verbLoop (verb : Nat) (cmsg : List UInt8) : Nat :=
  if cmsg = [] then verb
  else match find cmsg msgs 0 with
    | none => 0xFF
    | some i => match h : colon cmsg with
      | none => verb ||| 1 <<< i
      | some r => verbLoop (verb ||| 1 <<< i) r.tail
termination_by cmsg.length
decreasing_by exact colon_lt h

/-- `verb` (`src/header/fmtmsg/mod.rs:150-176`). -/
def verbOf (msgverb : Option (List UInt8)) : Nat :=
  let verb := match msgverb with
    | none => 0
    | some s => verbLoop 0 s
  if verb = 0 then 0xFF else verb

/-- `errstring` (`src/header/fmtmsg/mod.rs:107-113`); `none` is the null pointer. -/
def errstring (severity : Int32) : Option (List UInt8) :=
  if severity = 1 then some [0x48, 0x41, 0x4C, 0x54, 0x3A, 0x20]
  else if severity = 2 then some [0x45, 0x52, 0x52, 0x4F, 0x52, 0x3A, 0x20]
  else if severity = 3 then some [0x57, 0x41, 0x52, 0x4E, 0x49, 0x4E, 0x47, 0x3A, 0x20]
  else if severity = 4 then some [0x49, 0x4E, 0x46, 0x4F, 0x3A, 0x20]
  else none

/-- `%s` (`src/header/stdio/printf.rs:1059-1063`): a null pointer is "(null)". -/
def percentS (s : Option (List UInt8)) : List UInt8 := s.getD [0x28, 0x6E, 0x75, 0x6C, 0x6C, 0x29]

/-- `if c { s } else { "" }`, printed. -/
def pick (c : Bool) (s : Option (List UInt8)) : List UInt8 := if c then percentS s else []

/-- The bytes of a message (`src/header/fmtmsg/mod.rs:131-140`, `src/header/fmtmsg/mod.rs:178-186`); on the console `verb` does not count. -/
def message (a : Args) (verb : Nat) : List UInt8 :=
  pick (verb.testBit 0 && a.label.isSome) a.label
    ++ pick (verb.testBit 0 && a.label.isSome) (some [0x3A, 0x20])
    ++ pick (verb.testBit 1 && a.severity ≠ 0) (errstring a.severity)
    ++ pick (verb.testBit 2 && a.text.isSome) a.text
    ++ pick (verb.testBit 3 && a.action.isSome) (some [0x0A, 0x54, 0x4F, 0x20, 0x46, 0x49, 0x58, 0x3A, 0x20])
    ++ pick (verb.testBit 3 && a.action.isSome) a.action
    ++ pick (verb.testBit 3 && a.action.isSome) (some [0x20])
    ++ pick (verb.testBit 4 && a.tag.isSome) a.tag
    ++ [0x0A]

/-- `dprintf`: whether it succeeds (its value is at least 1), and the bytes that arrive. -/
def dprintf (limit : Option Nat) (b : List UInt8) : Bool × List UInt8 :=
  match limit with
  | none => (true, b)
  | some n => (false, b.take n)

/-- The part for the console (`src/header/fmtmsg/mod.rs:122-147`): the return value so far. -/
def toConsole (w : World) (a : Args) (s : St) : Int32 × St :=
  if a.classification &&& 512 ≠ 0 then
    if w.console then
      let s := { s with fds := s.fds + 1 }
      let r := dprintf w.consoleLimit (message a 0x1F)
      (if r.1 then 0 else 4, { s with console := s.console ++ r.2, fds := s.fds - 1 })
    else (4, s)
  else (0, s)

/-- The part for standard error (`src/header/fmtmsg/mod.rs:148-192`). -/
def toStderr (w : World) (a : Args) (ret : Int32) (s : St) : Int32 × St :=
  if a.classification &&& 256 ≠ 0 then
    let r := dprintf w.printLimit (message a (verbOf w.msgverb))
    (if r.1 then ret else ret ||| 1, { s with stderr := s.stderr ++ r.2 })
  else (ret, s)

/-- `fmtmsg` (`src/header/fmtmsg/mod.rs:91-201`). -/
def fmtmsg (w : World) (a : Args) (s : St) : Int32 × St :=
  let cs := s.cancel
  let s := { s with cancel := false }
  let c := toConsole w a s
  let p := toStderr w a c.1 c.2
  let ret := if p.1 &&& (4 ||| 1) = (4 ||| 1) then -1 else p.1
  (ret, { p.2 with cancel := cs })

end Verif.Fmtmsg
