import Verif.Exec.ExecModel

/-!
# `execve` on Redox: scripts and arguments

`execve`, `fexec_impl` and `parse_interpreter` (`src/platform/redox/exec.rs`). A file is its bytes; read errors, and files which
change meanwhile, are not modelled. What `redox_rt::proc::fexec_impl` does with an ELF file is in `StartModel`; here it only says
whether the file is an ELF file and whether it asks for a dynamic linker.
-/

namespace Verif.Exec

def EPERM : Int32 := 1
def ENOEXEC : Int32 := 8
def EACCES : Int32 := 13

/-- `u8::is_ascii_whitespace` of `core`. -/
def isSpaceByte (b : UInt8) : Bool := b == 32 || b == 9 || b == 10 || b == 12 || b == 13

/-- The first loop of `parse_interpreter` (`src/platform/redox/exec.rs:285-300`): the two bytes, and the position after them. If the
first read gives one byte only (`short`), the next one starts at the beginning of the array again. -/
def readShebang (file : List UInt8) (short : Bool) : (UInt8 × UInt8) × Nat :=
  match file with
  | [] => ((0, 0), 0)
  | [a] => ((a, 0), 1)
  | a :: b :: l =>
    if short then
      match l with
      | [] => ((b, 0), 2)
      | c :: _ => ((b, c), 3)
    else ((a, b), 2)

/-- `Iterator::position` for the first byte which is not white space. -/
def firstNonSpace : List UInt8 → Option Nat
  | [] => none
  | b :: l => if isSpaceByte b then (firstNonSpace l).map (· + 1) else some 0

/-- `NonZeroUsize::new` -/
def nonZero (i : Nat) : Option Nat := if i = 0 then none else some i

/-- The loop over the line (`src/platform/redox/exec.rs:325-347`): `interp_offset` and `args_offset`. -/
def scanLine : List UInt8 → Nat → Option Nat → Option Nat × Option Nat
  | [], _, interp => (interp, none)
  | b :: l, i, interp =>
    if b = 10 then
      match interp with
      | none => (nonZero i, none)
      | some o => (some o, nonZero i)
    else if b = 32 then
      match interp with
      | none => scanLine l (i + 1) (nonZero i)
      | some o => scanLine l (i + 1) (some o)
    else scanLine l (i + 1) interp

/-- The argument (`src/platform/redox/exec.rs:408-418`): leading blanks are skipped; the outer `none` is an interior NUL. -/
def trimArg (args : List UInt8) : Option (Option (List UInt8)) :=
  let rest := args.dropWhile fun b => b == 32 || b == 9
  if rest.isEmpty then some none else if rest.contains 0 then none else some (some rest)

/-- `parse_interpreter` (`src/platform/redox/exec.rs:281-425`): the interpreter and its argument, or the error. `PATH_MAX` is 4096
(`src/header/limits/mod.rs:21`). -/
def parseInterpreter (file : List UInt8) (short : Bool) : Except Int32 (Option (List UInt8 × Option (List UInt8))) :=
  let r := readShebang file short
  if r.1 ≠ (35, 33) then .ok none
  else match firstNonSpace (file.drop r.2) with
    | none => .error ENOEXEC
    | some p =>
      let pos := p + 2
      match scanLine (file.drop pos) 0 none with
      | (none, _) => .error ENOEXEC
      | (some o, a) =>
        if pos + o + a.getD 0 > 4096 then .error E2BIG
        else
          let interp := (file.drop pos).take o
          match (match a with | none => some none | some a => trimArg (((file.drop pos).drop o).take (a - o))) with
          | none => .error ENOEXEC
          | some arg => if interp.contains 0 then .error ENOEXEC else .ok (some (interp, arg))

/-- A file: owner, group, mode, bytes; whether it is an ELF file, and the dynamic linker it asks for. -/
structure ExeFile where
  uid : Nat
  gid : Nat
  mode : Nat
  bytes : List UInt8
  elf : Bool
  ptInterp : Option Path

/-- What `execve` gives to the new program: the file which is mapped (its path), the arguments and the environment. -/
structure NewImage where
  image : Path
  args : List Path
  envs : List Path
deriving DecidableEq

/-- The check of the mode (`src/platform/redox/exec.rs:114-126`), with the real ids. -/
def mayExecute (ruid rgid : Nat) (f : ExeFile) : Bool :=
  let mode := if ruid = f.uid then f.mode / 64 % 8 else if rgid = f.gid then f.mode / 8 % 8 else f.mode % 8
  mode % 2 = 1

/-- The arguments (`src/platform/redox/exec.rs:131-233`): those of the caller, or the interpreter, its argument, the path of the
script and the arguments of the caller without the first. The two ways in which they are stored (`ArgEnv`) are not
distinguished. -/
def scriptArgs (interp : Option (Path × Option Path)) (arg0 : Path) (argv : List Path) : List Path :=
  match interp with
  | none => argv
  | some (i, a) => i :: (a.toList ++ arg0 :: argv.drop 1)

/-- `execve` and `fexec_impl` (`src/platform/redox/exec.rs:22-58`, `src/platform/redox/exec.rs:76-268`). `open_` is `File::open`. The
dynamic linker of a program is run by `execve` again, at most `fuel` times. -/
def execve (open_ : Path → Except Int32 ExeFile) (ruid rgid : Nat) : Nat → Path → List Path → List Path → Except Int32 NewImage
  | 0, _, _, _ => .error ENOEXEC
  | fuel + 1, path, argv, envp =>
    match open_ path with
    | .error _ => .error ENOENT
    | .ok f =>
      if !mayExecute ruid rgid f then .error EPERM
      else match parseInterpreter f.bytes false with
        | .error e => .error e
        | .ok interp =>
          let args := scriptArgs interp path argv
          match (match interp with
            | none => some (path, f)
            | some (i, _) => match open_ i with | .error _ => none | .ok g => some (i, g)) with
          | none => .error ENOENT
          | some (image, g) =>
            if !g.elf then .error ENOEXEC
            else match g.ptInterp with
              | none => .ok ⟨image, args, envp⟩
              | some ld => execve open_ ruid rgid fuel ld args envp

end Verif.Exec
