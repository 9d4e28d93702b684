import Verif.Str.StrModel

/-!
# What a new program is given

The end of `redox_rt::proc::fexec_impl` (`redox-rt/src/proc.rs`), which writes the arguments, the environment and the auxiliary
vector for the new program, and the beginning of `relibc_start_v1` (`src/start.rs`) with `get_auxvs`, `get_auxv` and `init`
(`src/platform/mod.rs`), which reads them in the new program. 64-bit words, as on x86_64. An address is a natural number; `none` is
an error (a page which cannot be mapped) or a fault.

Not modelled: the loading of the segments, the file descriptors, the thread-local storage, the linker, the `init` arrays.
-/

namespace Verif.Exec

open Verif.Mem Verif.Str

/-- The keys of the auxiliary vector (`src/platform/auxv_defs.rs:1-81`). -/
def AT_NULL : Nat := 0
@[inherit_doc AT_NULL] def AT_PHDR : Nat := 3
@[inherit_doc AT_NULL] def AT_PHENT : Nat := 4
@[inherit_doc AT_NULL] def AT_PHNUM : Nat := 5
@[inherit_doc AT_NULL] def AT_BASE : Nat := 7
@[inherit_doc AT_NULL] def AT_ENTRY : Nat := 9
@[inherit_doc AT_NULL] def AT_CWD_PTR : Nat := 32
@[inherit_doc AT_NULL] def AT_CWD_LEN : Nat := 33
@[inherit_doc AT_NULL] def AT_SIGIGNMASK : Nat := 34
@[inherit_doc AT_NULL] def AT_SIGPROCMASK : Nat := 36
@[inherit_doc AT_NULL] def AT_UMASK : Nat := 40
@[inherit_doc AT_NULL] def AT_PROC_FD : Nat := 41
@[inherit_doc AT_NULL] def AT_THR_FD : Nat := 42
@[inherit_doc AT_NULL] def AT_NS_FD : Nat := 43
@[inherit_doc AT_NULL] def AT_CWD_FD : Nat := 44
@[inherit_doc AT_NULL] def AT_FILETABLE_FD : Nat := 45

/-- `usize::MAX` -/
def usizeMax : Nat := 2 ^ 64 - 1

/-- The number of words of the stack: `STACK_SIZE` is 1 MiB (`redox-rt/src/arch/x86_64.rs:24`). -/
def stackWords : Nat := 131072

/-- `ExtraInfo` (`redox-rt/src/proc.rs:50-70`). -/
structure ExtraInfo where
  cwd : Option (List UInt8)
  sigignmask : Nat
  sigprocmask : Nat
  umask : Nat
  thrFd : Nat
  procFd : Nat
  nsFd : Option Nat
  cwdFd : Option Nat
  filetableFd : Option Nat

/-- Where the program is: its base address, entry point and program headers; `interp` is the program which asked for an
interpreter, if that is what is loaded now (`InterpOverride`, `redox-rt/src/proc.rs:40-48`). -/
structure Image where
  base : Nat
  entry : Nat
  phdrs : Nat
  phnum : Nat
  phent : Nat
  interp : Option (Nat × Nat × Nat × Nat)

/-- What the closures `push` and `append` change: the words of the stack, from `sp` upwards, the memory of the new program with the
strings, and `offset`. -/
structure Build where
  words : List Nat
  mem : Mem UInt8
  offset : Nat

/-- `push` (`redox-rt/src/proc.rs:286-322`): the word below the last one. The mapping of the page into this process fails
if it is not on the stack. -/
def push (w : Nat) (b : Build) : Option Build :=
  if b.words.length < stackWords then some { b with words := w :: b.words } else none

/-- `append` (`redox-rt/src/proc.rs:370-388`) for the strings at `base`: the bytes are written, the NUL is not (the mapping is of
fresh pages, which are zero). The window of pages through which the bytes are written is not modelled. -/
def append (base : Nat) (s : List UInt8) (b : Build) : Nat × Build :=
  (base + b.offset, { b with
    mem := if s.isEmpty then b.mem else patch b.mem (base + b.offset) s
    offset := b.offset + (s.length + 1) })

/-- `push(append(s)?)?` -/
def pushString (base : Nat) (b : Build) (s : List UInt8) : Option Build :=
  let r := append base s b
  push r.1 r.2

/-- A value and its key. -/
def pushAux (b : Build) (kv : Nat × Nat) : Option Build := do
  let b ← push kv.2 b
  push kv.1 b

/-- The size of the strings (`redox-rt/src/proc.rs:352-354`). -/
def totalSize (args envs : List (List UInt8)) (cwd : Option (List UInt8)) : Nat :=
  (args.map fun s => s.length + 1).sum + (envs.map fun s => s.length + 1).sum
    + (match cwd with | none => 0 | some s => s.length + 1)

/-- The pages for the strings, from `mmap_anon_remote` at `base` (`redox-rt/src/proc.rs:355-363`), in the memory `m` of the new
program. -/
def stringPages (m : Mem UInt8) (base size : Nat) : Mem UInt8 :=
  fun a => if base ≤ a ∧ a < base + (size + 4095) / 4096 * 4096 then some 0 else m a

/-- The auxiliary vector about the program (`redox-rt/src/proc.rs:326-350`), in the order of the calls of `push`. -/
def Image.aux (i : Image) : List (Nat × Nat) :=
  match i.interp with
  | some (entry, phdrs, phnum, phent) =>
    [(AT_ENTRY, entry), (AT_BASE, i.base), (AT_PHDR, phdrs), (AT_PHNUM, phnum), (AT_PHENT, phent)]
  | none =>
    [(AT_ENTRY, i.base + i.entry), (AT_PHDR, i.phdrs), (AT_PHNUM, i.phnum), (AT_PHENT, i.phent)]

/-- The auxiliary vector about the process (`redox-rt/src/proc.rs:397-424`). -/
def ExtraInfo.aux (x : ExtraInfo) : List (Nat × Nat) :=
  [(AT_SIGIGNMASK, x.sigignmask), (AT_SIGPROCMASK, x.sigprocmask), (AT_UMASK, x.umask), (AT_THR_FD, x.thrFd),
    (AT_PROC_FD, x.procFd), (AT_NS_FD, x.nsFd.getD usizeMax), (AT_CWD_FD, x.cwdFd.getD usizeMax),
    (AT_FILETABLE_FD, x.filetableFd.getD usizeMax)]

/-- The working directory (`redox-rt/src/proc.rs:390-395`). -/
def pushCwd (base : Nat) (cwd : Option (List UInt8)) (b : Build) : Option Build :=
  match cwd with
  | none => some b
  | some s =>
    let r := append base s b
    [(AT_CWD_PTR, r.1), (AT_CWD_LEN, s.length)].foldlM pushAux r.2

/-- The stack and the strings written by `fexec_impl` (`redox-rt/src/proc.rs:283-440`); `base` is where the system put the pages
for the strings. -/
def buildStack (m : Mem UInt8) (base : Nat) (img : Image) (x : ExtraInfo) (args envs : List (List UInt8)) : Option Build := do
  let b ← push 0 ⟨[], stringPages m base (totalSize args envs x.cwd), 0⟩
  let b ← push AT_NULL b
  let b ← img.aux.foldlM pushAux b
  let b ← pushCwd base x.cwd b
  let b ← x.aux.foldlM pushAux b
  let b ← push 0 b
  let b ← envs.reverse.foldlM (pushString base) b
  let b ← push 0 b
  let b ← args.reverse.foldlM (pushString base) b
  push args.length b

/-! ## The new program -/

/-- `Stack::envp` (`src/start.rs:23-25`), as an index into the words of the stack; `Stack::argv` is 1. -/
def envpIndex (words : List Nat) : Option Nat := do
  let argc ← words[0]?
  some (1 + (argc + 1))

/-- The number of words before a null word, from a position: the loops of `Stack::auxv` (`src/start.rs:29-32`) and
`relibc_start_v1` (`src/start.rs:191-193`). -/
def countNonNull : List Nat → Option Nat
  | [] => none
  | w :: l => if w = 0 then some 0 else (countNonNull l).map (· + 1)

/-- `Stack::auxv` (`src/start.rs:27-35`). -/
def auxvIndex (words : List Nat) : Option Nat := do
  let envp ← envpIndex words
  let n ← countNonNull (words.drop envp)
  some (envp + n + 1)

/-- `auxv_iter` (`src/platform/mod.rs:286-306`), collected. -/
def auxvIter : List Nat → Option (List (Nat × Nat))
  | [] => none
  | [k] => if k = AT_NULL then some [] else none
  | k :: v :: l => if k = AT_NULL then some [] else (auxvIter l).map ((k, v) :: ·)

/-- `get_auxv_raw` (`src/platform/mod.rs:318-320`); the inner `none` is `None`. -/
def getAuxvRaw (words : List Nat) (key : Nat) : Option (Option Nat) :=
  (auxvIter words).map fun l => (l.find? fun kv => kv.1 == key).map (·.2)

/-- One insertion of `sortByKey`. -/
def insertKey (kv : Nat × Nat) : List (Nat × Nat) → List (Nat × Nat)
  | [] => [kv]
  | x :: l => if kv.1 ≤ x.1 then kv :: x :: l else x :: insertKey kv l

/-- `sort_unstable_by_key` of `core`: sorted by the key. The algorithm is a different one; it gives the same list if no key occurs
twice. -/
def sortByKey (l : List (Nat × Nat)) : List (Nat × Nat) := l.foldr insertKey []

/-- `get_auxvs` (`src/platform/mod.rs:309-315`). -/
def getAuxvs (words : List Nat) : Option (List (Nat × Nat)) := (auxvIter words).map sortByKey

/-- The loop of `binary_search_by` of `core`: the last candidate for the key. -/
def searchLoop (l : List (Nat × Nat)) (key : Nat) (base size : Nat) : Option Nat :=
  if _h : 1 < size then
    let half := size / 2
    match l[base + half]? with
    | none => none
    | some kv => searchLoop l key (if key < kv.1 then base else base + half) (size - half)
  else some base
termination_by size
decreasing_by omega

/-- `get_auxv` (`src/platform/mod.rs:321-326`): a binary search. -/
def getAuxv (l : List (Nat × Nat)) (key : Nat) : Option Nat :=
  if l.length = 0 then none
  else match searchLoop l key 0 l.length with
    | none => none
    | some i => match l[i]? with
      | none => none
      | some kv => if kv.1 = key then some kv.2 else none

/-- The first loop of `copy_string_array` (`src/start.rs:44-48`): the lengths with the NUL, for the pointers `ps`. -/
def lengthsOf (m : Mem UInt8) (ps : List Nat) : Option (List Nat) :=
  ps.mapM fun p => (strlen m p).map (· + 1)

/-- `copy_nonoverlapping` of `n` bytes. -/
def copyBytes (m : Mem UInt8) (src dst n : Nat) : Option (Mem UInt8) := do
  let l ← readN m src n
  let _ ← readN m dst n
  some (patch m dst l)

/-- The second loop of `copy_string_array` (`src/start.rs:56-68`). -/
def copyLoop (m : Mem UInt8) (buf : Nat) : List (Nat × Nat) → Nat → Option (List Nat × Mem UInt8)
  | [], _ => some ([0], m)
  | (item, len) :: l, offset => do
    let m' ← copyBytes m item (buf + offset) len
    let r ← copyLoop m' buf l (offset + len)
    some ((buf + offset) :: r.1, r.2)

/-- `platform::alloc`: the memory at `buf` is mapped, with any contents. -/
def allocAt (m : Mem UInt8) (buf size : Nat) (junk : Nat → UInt8) : Mem UInt8 :=
  fun a => if buf ≤ a ∧ a < buf + size then some (junk a) else m a

/-- `copy_string_array` (`src/start.rs:38-70`); `alloc` says where the allocator puts the copy, given its size. -/
def copyStringArray (m : Mem UInt8) (ps : List Nat) (alloc : Nat → Nat) (junk : Nat → UInt8) : Option (List Nat × Mem UInt8) := do
  let lengths ← lengthsOf m ps
  let buf := alloc lengths.sum
  copyLoop (allocAt m buf lengths.sum junk) buf (ps.zip lengths) 0

/-- What `main` is called with, and what `init` restores. -/
structure Started where
  argc : Nat
  argv : List Nat
  environ : List Nat
  mem : Mem UInt8
  /-- the bytes given to `set_cwd_manual`, and the descriptor, if it is called -/
  cwd : Option (List UInt8 × Nat)
  sigignmask : Nat
  sigprocmask : Nat
  /-- the argument of `swap_umask`, if it is called -/
  umask : Option Nat
  thrFd : Nat
  procFd : Nat
  nsFd : Option Nat

/-- The working directory restored by `init_inner` (`src/platform/mod.rs:368-386`): the bytes and the descriptor given to
`set_cwd_manual`, if it is called. -/
def initCwd (m : Mem UInt8) (auxvs : List (Nat × Nat)) : Option (Option (List UInt8 × Nat)) :=
  match getAuxv auxvs AT_CWD_PTR, getAuxv auxvs AT_CWD_LEN, getAuxv auxvs AT_CWD_FD with
  | some p, some n, some fd => do
    let bytes ← readN m p n
    some (if fd = usizeMax then none else some (bytes, fd))
  | _, _, _ => some none

/-- `platform::init` (`src/platform/mod.rs:331-351`) and `init_inner` (`src/platform/mod.rs:354-418`), as far as they read the
auxiliary vector; the checks of `set_cwd_manual` and the moving of descriptors to the upper table are not modelled. `MODE_PERM` of
the `syscall` crate is 0o7777, `S_ISVTX` is 0o1000. The fields for `main` are filled in by `start`. -/
def init (m : Mem UInt8) (auxvs : List (Nat × Nat)) (s : Started) : Option Started := do
  let procFd ← getAuxv auxvs AT_PROC_FD
  let nsFd ← getAuxv auxvs AT_NS_FD
  let cwd ← initCwd m auxvs
  some { s with
    procFd := procFd
    nsFd := if nsFd = usizeMax then none else some nsFd
    cwd := cwd
    sigignmask := (getAuxv auxvs AT_SIGIGNMASK).getD 0
    sigprocmask := (getAuxv auxvs AT_SIGPROCMASK).getD 0
    umask := (getAuxv auxvs AT_UMASK).map fun u => u % 2 ^ 32 &&& 0o7777 &&& 0o6777 }

/-- `relibc_start_v1` (`src/start.rs:108-238`) of a program which is not dynamically linked, from the words of the stack: what `main`
is called with. `alloc1`, `alloc2` are the allocations for the two copies. -/
def start (words : List Nat) (m : Mem UInt8) (alloc1 alloc2 : Nat → Nat) (junk : Nat → UInt8) : Option Started := do
  let aux ← auxvIndex words
  let thrFd ← (← getAuxvRaw (words.drop aux) AT_THR_FD)
  let argc ← words[0]?
  let argv ← copyStringArray m ((words.drop 1).take argc) alloc1 junk
  let envp ← envpIndex words
  let len ← countNonNull (words.drop envp)
  let environ ← copyStringArray argv.2 ((words.drop envp).take len) alloc2 junk
  let auxvs ← getAuxvs (words.drop aux)
  init environ.2 auxvs ⟨argc, argv.1, environ.1, environ.2, none, 0, 0, none, thrFd, 0, none⟩

end Verif.Exec
