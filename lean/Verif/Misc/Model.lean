/-!
# Division, clocks, `rand`, cursors, `pathconf`, `truncate`, `remove`, `renameat2`

`src/header/stdlib/mod.rs`, `src/header/time/mod.rs`, `src/header/sys_timeb/mod.rs`, `src/io/cursor.rs`, `src/header/unistd/pathconf.rs`,
`src/header/unistd/mod.rs`, `src/header/sys_statvfs/mod.rs`, `src/header/stdio/mod.rs`, `src/platform/redox/mod.rs`
-/

namespace Verif.Misc

/-! ## Division and absolute values, of signed numbers of `w` bits -/

/-- `div`, `ldiv`, `lldiv` (`src/header/stdlib/mod.rs:302-307,659-664,681-686`): quotient and remainder; no result: a panic. -/
def div (w : Nat) (numer denom : Int) : Option (Int × Int) :=
  if denom = 0 then none
  else if numer = -(2 ^ (w - 1)) ∧ denom = -1 then none
  else some (numer.tdiv denom, numer.tmod denom)

/-- `abs`, `labs`, `llabs` (`src/header/stdlib/mod.rs:140-142,622-624,668-670`), wrapping as in a release build. -/
def abs (w : Nat) (i : Int) : Int := if i = -(2 ^ (w - 1)) then i else if i < 0 then -i else i

/-! ## Clocks -/

/-- A `timespec`. -/
structure Ts where
  sec : Int
  nsec : Int
  deriving DecidableEq

/-- A signed number of 64 bits, 32 bits, wrapping. -/
def wrap64 (x : Int) : Int := x.bmod (2 ^ 64)
@[inherit_doc wrap64] def wrap32 (x : Int) : Int := x.bmod (2 ^ 32)

/-- `clock` (`src/header/time/mod.rs:221-235`, not on x86) with what `clock_gettime` of the processor's clock answers. -/
def clock (now : Option Ts) : Int :=
  match now with
  | none => -1
  | some ts => wrap64 (wrap64 (ts.sec * 1000000) + ts.nsec.tdiv (1000000000 / 1000000))

/-- `gettimeofday` of Redox (`src/platform/redox/mod.rs:746-761`) with the time of the kernel: seconds, microseconds; and the zone. -/
def gettimeofday (now : Option Ts) : Option ((Int × Int) × (Int × Int)) :=
  match now with
  | none => none
  | some ts => some ((ts.sec, ts.nsec.tdiv 1000), (0, 0))

/-- `timeb`. -/
structure Timeb where
  time : Int
  millitm : Int
  timezone : Int
  dstflag : Int

/-- `ftime` (`src/header/sys_timeb/mod.rs:48-74`). -/
def ftime (now : Option Ts) : Int × Option Timeb :=
  match gettimeofday now with
  | none => (-1, none)
  | some (tv, tz) => (0, some ⟨tv.1, (tv.2.tdiv 1000) % 2 ^ 16, tz.1.bmod (2 ^ 16), tz.2.bmod (2 ^ 16)⟩)

/-- `CLOCK_REALTIME`, `CLOCK_MONOTONIC` (`src/header/time/redox.rs:3-4`, `src/header/time/linux.rs:3-4`). -/
def realtime (redox : Bool) : Int := if redox then 1 else 0
@[inherit_doc realtime] def monotonic (redox : Bool) : Int := if redox then 4 else 1

/-- `TIME_UTC`, `TIME_MONOTONIC` (`src/header/time/constants.rs:34-36`). -/
def timeUtc (redox : Bool) : Int := realtime redox + 1
@[inherit_doc timeUtc] def timeMonotonic (redox : Bool) : Int := monotonic redox + 1

/-- `timespec_get` (`src/header/time/mod.rs:630-633`): the value returned and the time written. `clk` is what the clocks say. -/
def timespecGet (clk : Int → Option Ts) (base : Int) : Int × Option Ts :=
  match clk (wrap32 (base - 1)) with
  | none => (0, none)
  | some t => (base, some t)

/-- `timespec_getres` (`src/header/time/mod.rs:641-644`) with a pointer or without one; `res` are the resolutions. -/
def timespecGetres (res : Int → Option Ts) (ptr : Bool) (base : Int) : Int × Option Ts :=
  match res (wrap32 (base - 1)) with
  | none => (0, none)
  | some t => (base, if ptr then some t else none)

/-- `clock_getres` of Redox (`src/platform/redox/mod.rs:203-229`): `errno`, or the answer of the scheme `time` in so many bytes. -/
def clockGetres (read : Int → Except Int (Nat × Ts)) (clk : Int) : Except Int Ts :=
  if clk = realtime true ∨ clk = monotonic true then
    match read clk with
    | .error e => .error e
    | .ok (n, t) => if n < 16 then .error 5 else .ok t
  else .error 22

/-! ## `rand` -/

/-- The generator of the crate `rand_xorshift` with the distribution over `0..=RAND_MAX` of the crate `rand`: not modelled. -/
structure Gen (R : Type) where
  fromSeed : List UInt8 → R
  sample : R → Int × R

/-- `srand` (`src/header/stdlib/mod.rs:1371-1373`): `RNG` afterwards. -/
def srand {R : Type} (g : Gen R) (_rng : Option R) (seed : UInt32) : Option R := some (g.fromSeed (List.replicate 16 seed.toUInt8))

/-- `rand` (`src/header/stdlib/mod.rs:1115-1127`). -/
def rand {R : Type} (g : Gen R) (rng : Option R) : Int × Option R :=
  match rng with
  | some r => ((g.sample r).1, some (g.sample r).2)
  | none =>
    let r := g.fromSeed (List.replicate 16 1)
    ((g.sample r).1, some (g.sample r).2)

/-- So many calls of `rand`. -/
def rands {R : Type} (g : Gen R) : Nat → Option R → List Int × Option R
  | 0, rng => ([], rng)
  | n + 1, rng =>
    let r := rand g rng
    let l := rands g n r.2
    (r.1 :: l.1, l.2)

/-- `rand_r` (`src/header/stdlib/mod.rs:1136-1150`) with a pointer to a seed or NULL: the value returned, the seed afterwards. -/
def randR {R : Type} (g : Gen R) (seed : Option UInt32) : Int × Option UInt32 :=
  match seed with
  | none => (22, none)
  | some s =>
    let b := [s.toUInt8, (s >>> 8).toUInt8, (s >>> 16).toUInt8, (s >>> 24).toUInt8]
    let r := g.sample (g.fromSeed (b ++ b ++ b ++ b))
    (r.1, some (UInt32.ofNat (r.1 % 2 ^ 32).toNat))

/-! ## Cursors -/

/-- `Cursor` (`src/io/cursor.rs:82-85`). -/
structure Cursor where
  inner : List UInt8
  pos : Nat

/-- `SeekFrom`. -/
inductive From where
  | start (n : Nat)
  | end_ (n : Int)
  | current (n : Int)

/-- `seek` (`src/io/cursor.rs:210-234`); the position is a number of 64 bits. -/
def Cursor.seek (c : Cursor) (style : From) : Option Nat × Cursor :=
  let go (base : Nat) (off : Int) : Option Nat × Cursor :=
    let new := if off ≥ 0 then (if base + off.toNat < 2 ^ 64 then some (base + off.toNat) else none)
      else (if (-off).toNat ≤ base then some (base - (-off).toNat) else none)
    match new with
    | some n => (some n, { c with pos := n })
    | none => (none, c)
  match style with
  | .start n => (some n, { c with pos := n })
  | .end_ n => go c.inner.length n
  | .current n => go c.pos n

/-- `get_buf` (`src/io/cursor.rs:264-267`). -/
def Cursor.getBuf (c : Cursor) : List UInt8 := c.inner.drop (min c.pos c.inner.length)

/-- `read` (`src/io/cursor.rs:241-245`, `src/io/impls.rs:180-195`): how many bytes, the array, the cursor. -/
def Cursor.read (c : Cursor) (buf : List UInt8) : Nat × List UInt8 × Cursor :=
  let s := c.getBuf
  let amt := min buf.length s.length
  (amt, s.take amt ++ buf.drop amt, { c with pos := c.pos + amt })

/-- `slice_write` (`src/io/cursor.rs:283-288`, `src/io/impls.rs:253-259`). -/
def Cursor.sliceWrite (c : Cursor) (buf : List UInt8) : Nat × Cursor :=
  let pos := min c.pos c.inner.length
  let rest := c.inner.drop pos
  let amt := min buf.length rest.length
  (amt, ⟨c.inner.take pos ++ (buf.take amt ++ rest.drop amt), c.pos + amt⟩)

/-- `vec_write` (`src/io/cursor.rs:291-317`). -/
def Cursor.vecWrite (c : Cursor) (buf : List UInt8) : Nat × Cursor :=
  let pos := c.pos
  let vec := if c.inner.length < pos then c.inner ++ List.replicate (pos - c.inner.length) 0 else c.inner
  let space := vec.length - pos
  let left := buf.take (min space buf.length)
  let right := buf.drop (min space buf.length)
  let vec := vec.take pos ++ left ++ vec.drop (pos + left.length)
  (buf.length, ⟨vec ++ right, pos + buf.length⟩)

/-- `write_all` (`src/io/mod.rs:1754-1769`) of a cursor over a slice, of at most so many turns: whether everything was written. -/
def Cursor.writeAll : Nat → Cursor → List UInt8 → Bool × Cursor
  | 0, c, buf => (buf = [], c)
  | t + 1, c, buf =>
    if buf = [] then (true, c)
    else
      let r := c.sliceWrite buf
      if r.1 = 0 then (false, r.2) else Cursor.writeAll t r.2 (buf.drop r.1)

/-- `write!` of some pieces (`src/io/mod.rs:1809-1844`). Each turn writes a byte. -/
def Cursor.writePieces : Cursor → List (List UInt8) → Bool × Cursor
  | c, [] => (true, c)
  | c, p :: l =>
    let r := Cursor.writeAll (p.length + 1) c p
    if r.1 then Cursor.writePieces r.2 l else r

/-- `trim_start_matches('/')`. -/
def trimSlashes (s : List UInt8) : List UInt8 := s.dropWhile (· = 0x2F)

/-- "file", "/scheme/". -/
def fileScheme : List UInt8 := [0x66, 0x69, 0x6C, 0x65]
@[inherit_doc fileScheme] def slashScheme : List UInt8 := [0x2F, 0x73, 0x63, 0x68, 0x65, 0x6D, 0x65, 0x2F]

/-- `Sys::fpath` of Redox (`src/platform/redox/mod.rs:1068-1095`) from the scheme and the reference that the kernel's path consists of: the
length or `errno`, and the array. -/
def fpath (scheme reference : List UInt8) (out : List UInt8) : Except Int Nat × List UInt8 :=
  let c : Cursor := ⟨out, 0⟩
  let r := if scheme = fileScheme then c.writePieces [[0x2F], trimSlashes reference]
    else c.writePieces [slashScheme, scheme, [0x2F], trimSlashes reference]
  if r.1 then (.ok r.2.pos, r.2.inner) else (.error 36, r.2.inner)

/-! ## `pathconf` -/

/-- `pc` (`src/header/unistd/pathconf.rs:62-91`): the value and `errno` if it is set. -/
def pc (name : Int) : Int × Option Int :=
  match name with
  | 0 => (127, none)
  | 1 => (255, none)
  | 2 => (255, none)
  | 3 => (255, none)
  | 4 => (4096, none)
  | 5 => (4096, none)
  | 6 => (1, none)
  | 7 => (1, none)
  | 8 => (0, none)
  | 9 => (1, none)
  | 10 => (-1, none)
  | 11 => (-1, none)
  | 12 => (-1, none)
  | 13 => (64, none)
  | 14 => (-1, none)
  | 15 => (-1, none)
  | 16 => (4096, none)
  | 17 => (4096, none)
  | 18 => (4096, none)
  | 19 => (255, none)
  | 20 => (1, none)
  | _ => (-1, some 22)

/-- `fpathconf` (`src/header/unistd/pathconf.rs:104-106`). -/
def fpathconf (_fildes : Int) (name : Int) : Int × Option Int := pc name

/-- `pathconf` (`src/header/unistd/pathconf.rs:119-121`). -/
def pathconf (_path : List UInt8) (name : Int) : Int × Option Int := pc name

/-! ## `truncate`, `statvfs` -/

/-- What the system does: the descriptor `open` gives, what happens to it then, and whether `close` reports an error. -/
structure Calls (A : Type) where
  open_ : Except Int Nat
  act : Nat → Except Int A
  close : Nat → Except Int Unit

/-- The body of `truncate` (`src/header/unistd/mod.rs:1283-1296`) and of `statvfs` (`src/header/sys_statvfs/mod.rs:44-58`): the value
returned, `errno` if it is set, what the call in the middle gave, and the descriptors opened and closed. -/
def withFd {A : Type} (s : Calls A) : Int × Option Int × Option A × List Nat × List Nat :=
  match s.open_ with
  | .error e => (-1, some e, none, [], [])
  | .ok fd =>
    let res := s.act fd
    let _ := s.close fd
    match res with
    | .error e => (-1, some e, none, [fd], [fd])
    | .ok a => (0, none, some a, [fd], [fd])

/-! ## `remove`, `renameat2` -/

/-- `remove` (`src/header/stdio/mod.rs:1275-1281`) with what `unlink` and `rmdir` do to the files: the value returned, `errno`, the files. -/
def remove {F : Type} (unlink rmdir : F → Except Int F) (fs : F) : Int × Option Int × F :=
  match unlink fs with
  | .ok fs => (0, none, fs)
  | .error _ =>
    match rmdir fs with
    | .ok fs => (0, none, fs)
    | .error e => (-1, some e, fs)

/-- The files: what each name stands for. -/
abbrev Names := List UInt8 → Option Nat

/-- `frename`: the file of one name gets the other one. -/
def frename (old new : List UInt8) (fs : Names) : Names := fun p => if p = new then fs old else if p = old then none else fs p

/-- `renameat2` of Redox (`src/platform/redox/mod.rs:1107-1140`): `errno` or nothing, and the files. `between` is what other processes do
after the name has been looked up and before the kernel renames. Both names are in directories that can be written. -/
def renameat2 (old new : List UInt8) (flags : Nat) (between : Names → Names) (fs : Names) : Except Int Unit × Names :=
  if flags &&& (2 ^ 32 - 1 - 1) ≠ 0 then (.error 95, fs)
  else if flags &&& 1 ≠ 0 ∧ (fs new).isSome then (.error 17, fs)
  else
    let fs := between fs
    if fs old = none then (.error 2, fs) else (.ok (), frename old new fs)

end Verif.Misc
