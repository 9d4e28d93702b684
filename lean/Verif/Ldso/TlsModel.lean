import Verif.Mem.Basic
import Verif.Ldso.LinkModel
/-!
# Thread-local storage of loaded objects

`src/ld_so/tcb.rs`, `src/ld_so/linker.rs:593-719`, `src/header/dl-tls/mod.rs`, `src/pthread/mod.rs:164-173,241`, on x86_64.

* What an object's `PT_TLS` segment says is a `Seg`. Only the objects that have one are looked at. The objects loaded with the
  program (libc among them) are given in the order they are loaded; so are those of a `dlopen`.
* Addresses of new memory (`mmap`, `alloc`) are arguments of the calls. All memory handed out so far lies below `brk`, and new
  memory above it. That new memory is not part of memory in use is all that matters. `alloc` does not fail.
* `none` = a panic.
-/

namespace Verif.Ldso

open Verif.Mem

/-- A `PT_TLS` segment: the initialised part (`p_filesz` bytes), `p_memsz`, `p_align`. -/
structure Seg where
  image : List UInt8
  size : Nat
  align : Nat
deriving DecidableEq

/-- `Master` (`src/ld_so/tcb.rs:23-34`), with the bytes instead of the pointer to them. -/
structure TMaster where
  image : List UInt8
  size : Nat
  offset : Nat
deriving DecidableEq

/-- The fields of `Tcb` used here (`src/ld_so/tcb.rs:49-68`). No `dtv`: `dtv_ptr` is NULL. Entry 0: a NULL pointer. -/
structure Thread where
  tlsEnd : Nat
  tlsLen : Nat
  masters : List TMaster
  dtv : Option (List Nat)
deriving DecidableEq

/-- The process. `own` is for the statements only: the segment of the object with a module id. -/
structure Proc where
  mem : Mem UInt8
  threads : List Thread
  nextTls : Nat
  tlsSize : Nat
  brk : Nat
  own : Nat → Option Seg

/-- The masters of the objects loaded with the program, when `size` bytes are already taken
(`src/ld_so/dso.rs:692-699`, `src/ld_so/linker.rs:851-852,872-879`). -/
def layout (size : Nat) : List Seg → List TMaster
  | [] => []
  | g :: gs => ⟨g.image, g.size, align16 size + g.size⟩ :: layout (align16 size + g.size) gs

/-- `self.tls_size` after that. -/
def layoutSize (size : Nat) : List Seg → Nat
  | [] => size
  | g :: gs => layoutSize (align16 size + g.size) gs

/-- `next_multiple_of` the page size. -/
def pageUp (n : Nat) : Nat := (n + 4095) / 4096 * 4096

/-- `Tcb::map` (`src/ld_so/tcb.rs:260-273`): zeroed memory. -/
def mapZero (mem : Mem UInt8) (a n : Nat) : Mem UInt8 := patch mem a (List.replicate n 0)

/-- The loop of `Tcb::copy_masters` (`src/ld_so/tcb.rs:155-189`), from `num_copied_masters` = 0. An offset beyond the TLS area
makes the range invalid, also if the subtraction wraps around. -/
def copyLoop (tlsEnd tlsLen : Nat) : List TMaster → Mem UInt8 → Option (Mem UInt8)
  | [], mem => some mem
  | m :: ms, mem =>
    if m.image = [] then copyLoop tlsEnd tlsLen ms mem
    else if m.offset ≤ tlsLen ∧ m.image.length ≤ m.offset then
      copyLoop tlsEnd tlsLen ms (patch mem (tlsEnd - m.offset) m.image)
    else none

/-- `Tcb::copy_masters` (`src/ld_so/tcb.rs:149-194`); an error makes both callers fail or panic. -/
def copyMasters (tlsEnd tlsLen : Nat) (ms : List TMaster) (mem : Mem UInt8) : Option (Mem UInt8) :=
  if tlsLen = 0 then some mem else copyLoop tlsEnd tlsLen ms mem

/-- Loading the program (`src/ld_so/linker.rs:608-710`, `Tcb::new` `src/ld_so/tcb.rs:80-111`): `base` is the address of the TLS
area. -/
def startTls (segs : List Seg) (base : Nat) : Option Proc :=
  let ms := layout 0 segs
  let len := pageUp (layoutSize 0 segs)
  let fin := base + len
  match copyMasters fin len ms (mapZero (fun _ => none) base len) with
  | none => none
  | some mem =>
    some { mem, threads := [⟨fin, len, ms, some (ms.map fun m => fin - m.offset)⟩], nextTls := segs.length + 1,
           tlsSize := layoutSize 0 segs, brk := fin, own := fun i => if i = 0 then none else segs[i - 1]? }

/-- `pthread_create` (`src/pthread/mod.rs:164-173,241`) by the thread `t`. -/
def createThread (p : Proc) (t base : Nat) : Option Proc :=
  match p.threads[t]? with
  | none => none
  | some th =>
    let len := pageUp th.tlsLen
    let fin := base + len
    match copyMasters fin len th.masters (mapZero p.mem base len) with
    | none => none
    | some mem => some { p with mem, threads := p.threads ++ [⟨fin, len, th.masters, none⟩], brk := fin }

/-- `dlopen` by the thread `t` of objects with these segments (`src/ld_so/linker.rs:872-879,714-719`). -/
def openTls (p : Proc) (t : Nat) (segs : List Seg) : Proc :=
  { p with
    threads := p.threads.modify t fun th =>
      { th with masters := th.masters ++ segs.map fun g => ⟨g.image, g.size, align16 p.tlsSize + g.size⟩ }
    nextTls := p.nextTls + segs.length
    own := fun i => if p.nextTls ≤ i ∧ i < p.nextTls + segs.length then segs[i - p.nextTls]? else p.own i }

/-- `dlopen` that fails after `n` objects with thread-local storage were read (`src/ld_so/linker.rs:594-604,877-878`). -/
def failTls (p : Proc) (n : Nat) : Proc := { p with nextTls := p.nextTls + n }

/-- `Tcb::setup_dtv` (`src/ld_so/tcb.rs:229-266`) where `__tls_get_addr` calls it (`src/header/dl-tls/mod.rs:38-41`). -/
def growDtv (th : Thread) : List Nat :=
  match th.dtv with
  | none => th.masters.map fun m => th.tlsEnd - m.offset
  | some l => l ++ List.replicate (th.masters.length - l.length) 0

/-- `__tls_get_addr` (`src/header/dl-tls/mod.rs:23-94`) in the thread `t`: the address, 0 for NULL. `base` is what `alloc` would
return. -/
def tlsGetAddr (p : Proc) (t module offset base : Nat) : Option (Nat × Proc) :=
  match p.threads[t]? with
  | none => none
  | some th =>
    if th.masters = [] then none
    else
      let l := growDtv th
      match module with
      | 0 => some (0, { p with threads := p.threads.set t { th with dtv := some l } })
      | i + 1 =>
        match l[i]?, th.masters[i]? with
        | some a, some m =>
          if a = 0 then
            some (base + offset,
              { p with mem := patch p.mem base (m.image ++ List.replicate (m.size - m.image.length) 0),
                       threads := p.threads.set t { th with dtv := some (l.set i base) },
                       brk := base + m.size })
          else some (a + offset, { p with threads := p.threads.set t { th with dtv := some l } })
        | _, _ => some (0, { p with threads := p.threads.set t { th with dtv := some l } })

/-- What happens in the process: a thread is created, a library is opened or opening one fails, a thread asks for the address of
a variable, or the program writes to its memory. -/
inductive TOp where
  | create (t base : Nat)
  | dlopen (t : Nat) (segs : List Seg)
  | failed (n : Nat)
  | access (t module offset base : Nat)
  | write (mem : Mem UInt8)

/-- What the files and the system guarantee: `p_filesz ≤ p_memsz`; new memory is new, and aligned. -/
def TOp.Valid (p : Proc) : TOp → Prop
  | .create _ base => p.brk ≤ base ∧ base % 4096 = 0
  | .dlopen _ segs => ∀ g ∈ segs, g.image.length ≤ g.size
  | .failed _ => True
  | .access _ _ _ base => p.brk ≤ base ∧ base % 16 = 0
  | .write _ => True

def TOp.step (p : Proc) : TOp → Option Proc
  | .create t base => createThread p t base
  | .dlopen t segs => some (openTls p t segs)
  | .failed n => some (failTls p n)
  | .access t m off base => (tlsGetAddr p t m off base).map (·.2)
  | .write mem => some { p with mem }

end Verif.Ldso
