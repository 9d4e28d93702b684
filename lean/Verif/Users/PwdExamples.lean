import Verif.Users.PwdProps
/-!
# C87: where the user database goes wrong, and examples
-/

namespace Verif.Users

open Verif.Net

/-- A text as bytes. -/
def txt (s : String) : List UInt8 := s.toList.map fun c => UInt8.ofNat c.toNat

/-- The user "root". -/
def root : User := ⟨txt "root", txt "x", 0, 0, txt "Super User", txt "/root", txt "/bin/sh"⟩

/-- The user "bob". -/
def bob : User := ⟨txt "bob", txt "x", 1000, 100, [], txt "/home/bob", txt "/bin/sh"⟩

def rootLine : List UInt8 := txt "root:x:0:0:Super User:/root:/bin/sh"
def bobLine : List UInt8 := txt "bob:x:1000:100::/home/bob:/bin/sh"

theorem line_of {redox : Bool} {l : List UInt8} {u : User} (ut gt : List UInt8) (h1 : accDigits 31 10 0 ut = some u.uid)
    (h2 : accDigits 31 10 0 gt = some u.gid)
    (h3 : l = List.intercalate [if redox then 0x3B else 0x3A] (u.fields redox ut gt) ∧
      (∀ w ∈ u.fields redox ut gt, (if redox then 0x3B else 0x3A) ∉ w ∧ 0 ∉ w ∧ 0x0A ∉ w) ∧
      (redox = true → u.passwd = [0x78])) (h4 : ut ≠ [] := by decide +kernel) (h5 : gt ≠ [] := by decide +kernel) : Line redox l u := by
  obtain ⟨a1, a2⟩ := (acc_iff (by decide) (by decide) h4).1 h1
  obtain ⟨b1, b2⟩ := (acc_iff (by decide) (by decide) h5).1 h2
  exact ⟨ut, gt, a1, a2, b1, b2, h3⟩

theorem root_line : Line false rootLine root := line_of (txt "0") (txt "0") (by decide +kernel) (by decide +kernel) (by decide +kernel)

theorem bob_line : Line false bobLine bob := line_of (txt "1000") (txt "100") (by decide +kernel) (by decide +kernel) (by decide +kernel)

/-- A file of the Redox kind. -/
example : Line true (txt "bob;1000;100;;/home/bob;/bin/sh") bob :=
  line_of (txt "1000") (txt "100") (by decide +kernel) (by decide +kernel) (by decide +kernel)

theorem both_lines : Lines false [rootLine, bobLine] [root, bob] := ⟨root_line, bob_line, trivial⟩

/-- "bob" is found behind "root", in a file without a newline at the end. -/
example : ∃ o, getpw false (named (txt "bob")) (body [rootLine] ++ bobLine ++ []) = some o ∧ Shows o.buf o.ref bob :=
  (C87_getpwnam_partial false (txt "bob") [rootLine] [root] ⟨root_line, trivial⟩ (by decide +kernel)).1 bobLine [] bob bob_line
    (by decide +kernel) (.inl rfl)

/-- And by id, in a buffer of 40 bytes. -/
example : ∃ p buf', getpwR false (hasUid 1000) (body [rootLine] ++ bobLine ++ []) (List.replicate 40 0xFF) = ⟨0, none, some p, buf'⟩ ∧
    Shows buf' p bob ∧ buf'.length = 40 := by
  obtain ⟨p, b, h1, h2, h3, _⟩ := (C87_getpwuid_r_partial false 1000 [rootLine] [root] ⟨root_line, trivial⟩ (by decide +kernel)
    (List.replicate 40 0xFF) (by decide +kernel)).1 bobLine [] bob bob_line (by decide +kernel) (.inl rfl) (by decide +kernel)
  exact ⟨p, b, h1, h2, by simpa using h3⟩

/-- Two entries, the end, and again after `setpwent`. -/
example : Agree (pwRun false (body [rootLine, bobLine]) none [.next, .next, .next, .rewind, .next]) [some root, some bob, none, some root] :=
  C87_getpwent_partial false _ _ both_lines _

/-- The entries returned for "root" in the middle of a longer buffer. -/
example : (getpwR false (named (txt "root")) (body [rootLine, bobLine]) (List.replicate 64 0)).entry = some ⟨0, some 5, 0, 0, 11, 22, 28⟩ := by
  decide +kernel

/-- A line that does not describe a user, a comment for example, ends the search: the user behind it is not found. -/
theorem C87_comment_violation : Line false bobLine bob ∧ bob.name = txt "bob" ∧
    getpw false (named (txt "bob")) (body [txt "# users", bobLine]) = none ∧
    (getpwR false (named (txt "bob")) (body [txt "# users", bobLine]) (List.replicate 100 0)).ret = -1 :=
  ⟨bob_line, rfl, by decide +kernel, by decide +kernel⟩

/-- So does an id that is not an `int`, 4294967294 for "nobody". -/
theorem C87_big_violation : getpw false (named (txt "bob")) (body [txt "nobody:x:4294967294:4294967294::/:/bin/false", bobLine]) = none := by
  decide +kernel

/-- For `getpwent` it looks like the end of the users. -/
theorem C87_getpwent_violation :
    (pwRun false (body [rootLine, txt "# users", bobLine]) none [.next, .next, .next]).map Option.isSome = [true, false, true] := by
  decide +kernel

/-- Too small a buffer: -1 is returned, not the error number. -/
theorem C87_range_violation : (getpwR false (named (txt "root")) (body [rootLine]) (List.replicate 10 0)).ret = -1 := by decide +kernel

/-- The buffer has room for the user "bob" but not for the user before: not found. -/
theorem C87_earlier_violation :
    bobLine.length + 1 ≤ (List.replicate 34 (0 : UInt8)).length ∧
    (getpwR false (named (txt "bob")) (body [rootLine, bobLine]) (List.replicate 34 0)).entry = none := by decide +kernel

/-- What is in the caller's buffer becomes part of the user: the line has neither directory nor shell, and is not a user for
`getpwnam`; `getpwnam_r` takes both from the buffer. -/
theorem C87_stale_violation : ∃ file buf p, file = txt "bob:x:1000:100:Bob\n" ∧
    getpw false (named (txt "bob")) file = none ∧ (getpwR false (named (txt "bob")) file buf).entry = some p ∧
    Str (getpwR false (named (txt "bob")) file buf).buf p.dir (txt "/evil") ∧
    Str (getpwR false (named (txt "bob")) file buf).buf p.shell (txt "/bin/evil") :=
  ⟨_, List.replicate 19 0x41 ++ txt "/evil" ++ 0 :: txt "/bin/evil" ++ [0], ⟨0, some 4, 1000, 100, 15, 19, 25⟩, rfl,
    by decide +kernel, by decide +kernel,
    ⟨txt "bob" ++ 0 :: txt "x" ++ 0 :: txt "1000" ++ 0 :: txt "100" ++ 0 :: txt "Bob" ++ [0], txt "/bin/evil" ++ [0],
      by decide +kernel, by decide +kernel, by decide +kernel⟩,
    ⟨txt "bob" ++ 0 :: txt "x" ++ 0 :: txt "1000" ++ 0 :: txt "100" ++ 0 :: txt "Bob" ++ 0 :: txt "/evil" ++ [0], [],
      by decide +kernel, by decide +kernel, by decide +kernel⟩⟩

/-- A line with one field too few is accepted; the shell is then not in the buffer but behind it, where no string is. -/
theorem C87_overrun_violation : ∃ o, getpw false (named (txt "bob")) (txt "bob:x:1000:100::/home/bob\n") = some o ∧
    o.ref.shell = o.buf.length ∧ ∀ s, ¬ Str o.buf o.ref.shell s := by
  refine ⟨⟨txt "bob" ++ 0 :: txt "x" ++ 0 :: txt "1000" ++ 0 :: txt "100" ++ 0 :: 0 :: txt "/home/bob" ++ [0],
    ⟨0, some 4, 1000, 100, 15, 16, 26⟩⟩, by decide +kernel, by decide +kernel, ?_⟩
  rintro s ⟨pre, post, h1, h2, _⟩
  have h3 : 26 = (pre ++ s ++ 0 :: post).length := by rw [← h1]; decide +kernel
  rw [List.length_append, List.length_append, h2, List.length_cons] at h3
  dsimp only at h3
  omega

end Verif.Users
