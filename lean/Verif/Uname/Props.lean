import Verif.Uname.Model
/-!
# `uname` (C177)
-/

namespace Verif.Uname

/-! ## Specification -/

/-- The string an array holds: what is before its first NUL, which there is. -/
def Holds (f s : Bytes) : Prop := f.length = 65 ∧ ∃ t, f = s ++ 0 :: t ∧ 0 ∉ s

/-- The structure is one of arrays of 65 bytes. -/
structure Uts.Ok (u : Uts) : Prop where
  sysname : u.sysname.length = 65
  nodename : u.nodename.length = 65
  release : u.release.length = 65
  version : u.version.length = 65
  machine : u.machine.length = 65
  domainname : u.domainname.length = 65

/-- A name that can be a line: text without a line feed, a carriage return at its end or a NUL, that fits. -/
def Name (utf8 : Bytes → Bool) (s : Bytes) : Prop :=
  0x0A ∉ s ∧ 0 ∉ s ∧ s.getLast? ≠ some 0x0D ∧ s.length ≤ 64 ∧ utf8 s = true

/-! ## Lemmas -/

theorem put_length (dst src : Bytes) : (put dst src).length = dst.length := by
  unfold put
  rw [List.length_append, List.length_take, List.length_drop]
  omega

theorem put_eq {dst src : Bytes} (h : src.length ≤ dst.length) : put dst src = src ++ dst.drop src.length := by
  unfold put
  rw [List.take_of_length_le h]

theorem put_holds {dst s : Bytes} (hd : dst.length = 65) (hl : s.length ≤ 64) (h0 : 0 ∉ s) : Holds (put dst (s ++ [0])) s := by
  refine ⟨by rw [put_length, hd], dst.drop (s ++ [0]).length, ?_, h0⟩
  rw [put_eq (by simp only [List.length_append, List.length_singleton]; omega), List.append_assoc]
  rfl

theorem takeWhile_line {s r : Bytes} (h : 0x0A ∉ s) : (s ++ 0x0A :: r).takeWhile (· ≠ 0x0A) = s := by
  induction s with
  | nil => simp
  | cons b s ih =>
    have hb : b ≠ 0x0A := fun e => h (by simp [e])
    rw [List.cons_append, List.takeWhile_cons, if_pos (by simpa using hb), ih (fun hm => h (by simp [hm]))]

theorem readLine_name {utf8 : Bytes → Bool} {s r dst : Bytes} (h : Name utf8 s) : readLine utf8 dst (s ++ 0x0A :: r) = some (put dst (s ++ [0]), r) := by
  obtain ⟨h1, _, h3, h4, h5⟩ := h
  unfold readLine nextLine
  rw [if_neg (by simp)]
  dsimp only
  rw [takeWhile_line h1, if_neg (by simp [h5]), List.drop_left]
  dsimp only
  rw [if_neg h3, if_neg (by simp only [List.length_append, List.length_singleton]; omega)]

theorem readLine_bounds {utf8 : Bytes → Bool} {s r dst f : Bytes} (hd : dst.length = 65) (h : readLine utf8 dst s = some (f, r)) : f.length = 65 ∧ 0 ∈ f := by
  unfold readLine at h
  split at h
  · rename_i line t _
    split at h
    · exact absurd h (by simp)
    · rename_i hl
      simp only [Option.some.injEq, Prod.mk.injEq] at h
      rw [← h.1]
      refine ⟨by rw [put_length, hd], ?_⟩
      rw [put_eq (by omega)]
      simp
  · exact absurd h (by simp)

theorem hostname_bounds {file : Option Bytes} {dst n : Bytes} (hd : dst.length = 65) (h : hostname file dst = some n) : n.length = 65 ∧ 0 ∈ n := by
  unfold hostname at h
  rw [if_neg (fun e => by rw [e] at hd; exact absurd hd (by decide))] at h
  split at h
  · exact absurd h (by simp)
  · rename_i l
    simp only [Option.some.injEq] at h
    rw [← h]
    refine ⟨by rw [put_length, hd], ?_⟩
    rw [put_eq (by simp only [List.length_append, List.length_singleton, List.length_take]; omega)]
    simp

/-! ## C177 -/

/-- **C177**, part: with a host name and four lines that are names, each field holds its own, and the domain name is empty. Missing: a line feed at the
end of `/etc/hostname` is not part of the name (`C177_newline_violation`). -/
theorem C177_uname_partial {utf8 : Bytes → Bool} {u : Uts} (hu : u.Ok) {node sys rel mach ver rest : Bytes}
    (hn : node.length ≤ 64 ∧ 0 ∉ node) (h1 : Name utf8 sys) (h2 : Name utf8 rel) (h3 : Name utf8 mach) (h4 : Name utf8 ver) :
    ∃ v, uname utf8 (some node) (some (sys ++ 0x0A :: (rel ++ 0x0A :: (mach ++ 0x0A :: (ver ++ 0x0A :: rest))))) u = (0, v) ∧
      Holds v.nodename node ∧ Holds v.sysname sys ∧ Holds v.release rel ∧ Holds v.machine mach ∧ Holds v.version ver ∧ Holds v.domainname [] := by
  have e : hostname (some node) u.nodename = some (put u.nodename (node ++ [0])) := by
    unfold hostname
    rw [if_neg (fun e => by have := hu.nodename; rw [e] at this; exact absurd this (by decide))]
    dsimp only
    rw [hu.nodename, List.take_of_length_le hn.1]
  unfold uname
  rw [e]
  dsimp only
  rw [readLine_name h1]
  dsimp only
  rw [readLine_name h2]
  dsimp only
  rw [readLine_name h3]
  dsimp only
  rw [readLine_name h4]
  refine ⟨_, rfl, put_holds hu.nodename hn.1 hn.2, put_holds hu.sysname h1.2.2.2.1 h1.2.1, put_holds hu.release h2.2.2.2.1 h2.2.1,
    put_holds hu.machine h3.2.2.2.1 h3.2.1, put_holds hu.version h4.2.2.2.1 h4.2.1, ?_⟩
  dsimp only
  rw [hu.domainname]
  exact ⟨by simp, List.replicate 64 0, rfl, by simp⟩

theorem readLine_crlf {utf8 : Bytes → Bool} {s r dst : Bytes} (h1 : 0x0A ∉ s) (h4 : s.length ≤ 64) (h5 : utf8 (s ++ [0x0D]) = true) :
    readLine utf8 dst (s ++ 0x0D :: 0x0A :: r) = some (put dst (s ++ [0]), r) := by
  have e : s ++ 0x0D :: 0x0A :: r = (s ++ [0x0D]) ++ 0x0A :: r := by simp
  unfold readLine nextLine
  rw [if_neg (by simp)]
  dsimp only
  rw [e, takeWhile_line (by simp [h1]), if_neg (by simp [h5]), List.drop_left]
  dsimp only
  have k : (if (s ++ [0x0D]).getLast? = some 0x0D then (s ++ [0x0D]).dropLast else s ++ [0x0D]) = s := by simp
  rw [k, if_neg (by simp only [List.length_append, List.length_singleton]; omega)]

/-- **C177**: lines that end with a carriage return and a line feed give the same names. -/
theorem C177_crlf {utf8 : Bytes → Bool} {u : Uts} (hu : u.Ok) {node sys rel mach ver rest : Bytes} (hn : node.length ≤ 64 ∧ 0 ∉ node)
    (h : ∀ s ∈ [sys, rel, mach, ver], 0x0A ∉ s ∧ 0 ∉ s ∧ s.length ≤ 64 ∧ utf8 (s ++ [0x0D]) = true) :
    ∃ v, uname utf8 (some node) (some (sys ++ 0x0D :: 0x0A :: (rel ++ 0x0D :: 0x0A :: (mach ++ 0x0D :: 0x0A :: (ver ++ 0x0D :: 0x0A :: rest))))) u = (0, v) ∧
      Holds v.nodename node ∧ Holds v.sysname sys ∧ Holds v.release rel ∧ Holds v.machine mach ∧ Holds v.version ver ∧ Holds v.domainname [] := by
  have e : hostname (some node) u.nodename = some (put u.nodename (node ++ [0])) := by
    unfold hostname
    rw [if_neg (fun e => by have := hu.nodename; rw [e] at this; exact absurd this (by decide))]
    dsimp only
    rw [hu.nodename, List.take_of_length_le hn.1]
  obtain ⟨a1, a2, a3, a4⟩ := h sys (by simp)
  obtain ⟨b1, b2, b3, b4⟩ := h rel (by simp)
  obtain ⟨c1, c2, c3, c4⟩ := h mach (by simp)
  obtain ⟨d1, d2, d3, d4⟩ := h ver (by simp)
  unfold uname
  rw [e]
  dsimp only
  rw [readLine_crlf a1 a3 a4]
  dsimp only
  rw [readLine_crlf b1 b3 b4]
  dsimp only
  rw [readLine_crlf c1 c3 c4]
  dsimp only
  rw [readLine_crlf d1 d3 d4]
  refine ⟨_, rfl, put_holds hu.nodename hn.1 hn.2, put_holds hu.sysname a3 a2, put_holds hu.release b3 b2,
    put_holds hu.machine c3 c2, put_holds hu.version d3 d2, ?_⟩
  dsimp only
  rw [hu.domainname]
  exact ⟨by simp, List.replicate 64 0, rfl, by simp⟩

/-- **C177**: a host name that does not fit is cut after 64 bytes. -/
theorem C177_long_host {node : Bytes} (hn : 64 < node.length) (h0 : 0 ∉ node) (utf8 : Bytes → Bool) (sys : Option Bytes) {u : Uts} (hu : u.Ok) :
    Holds (uname utf8 (some node) sys u).2.nodename (node.take 64) := by
  have e : hostname (some node) u.nodename = some (put u.nodename (node.take 64 ++ [0])) := by
    unfold hostname
    rw [if_neg (fun e => by have := hu.nodename; rw [e] at this; exact absurd this (by decide))]
    dsimp only
    rw [hu.nodename]
  have k := put_holds (s := node.take 64) hu.nodename (by rw [List.length_take]; omega) (fun h => h0 (List.mem_of_mem_take h))
  unfold uname
  rw [e]
  dsimp only
  repeat' split
  all_goals exact k

/-- **C177**: whatever is in the files, no field changes its length, and after success each has a NUL. -/
theorem C177_bounds (utf8 : Bytes → Bool) (host sys : Option Bytes) {u : Uts} (hu : u.Ok) :
    (uname utf8 host sys u).2.Ok ∧
    ((uname utf8 host sys u).1 = 0 → ∀ f ∈ [(uname utf8 host sys u).2.sysname, (uname utf8 host sys u).2.nodename, (uname utf8 host sys u).2.release,
      (uname utf8 host sys u).2.version, (uname utf8 host sys u).2.machine, (uname utf8 host sys u).2.domainname], 0 ∈ f) ∧
    ((uname utf8 host sys u).1 = 0 ∨ (uname utf8 host sys u).1 = -1) := by
  have bad : ∀ v : Uts, v.Ok → ((-1 : Int), v).2.Ok ∧ (((-1 : Int), v).1 = 0 → ∀ f ∈ [v.sysname, v.nodename, v.release, v.version, v.machine, v.domainname], 0 ∈ f) ∧
      (((-1 : Int), v).1 = 0 ∨ ((-1 : Int), v).1 = -1) := fun v hv => ⟨hv, fun h => absurd h (by simp), .inr rfl⟩
  unfold uname
  split
  · exact bad u hu
  · rename_i n hn
    obtain ⟨n1, n2⟩ := hostname_bounds hu.nodename hn
    dsimp only
    split
    · exact bad _ ⟨hu.1, n1, hu.3, hu.4, hu.5, hu.6⟩
    · split
      · exact bad _ ⟨hu.1, n1, hu.3, hu.4, hu.5, hu.6⟩
      · rename_i f1 s1 e1
        obtain ⟨a1, a2⟩ := readLine_bounds hu.sysname e1
        split
        · exact bad _ ⟨a1, n1, hu.3, hu.4, hu.5, hu.6⟩
        · rename_i f2 s2 e2
          obtain ⟨b1, b2⟩ := readLine_bounds hu.release e2
          split
          · exact bad _ ⟨a1, n1, b1, hu.4, hu.5, hu.6⟩
          · rename_i f3 s3 e3
            obtain ⟨c1, c2⟩ := readLine_bounds hu.machine e3
            split
            · exact bad _ ⟨a1, n1, b1, hu.4, c1, hu.6⟩
            · rename_i f4 s4 e4
              obtain ⟨d1, d2⟩ := readLine_bounds hu.version e4
              refine ⟨⟨a1, n1, b1, d1, c1, by dsimp only; rw [List.length_replicate]; exact hu.6⟩, fun _ f hf => ?_, .inl rfl⟩
              simp only [List.mem_cons, List.not_mem_nil, or_false] at hf
              rcases hf with rfl | rfl | rfl | rfl | rfl | rfl
              · exact a2
              · exact n2
              · exact b2
              · exact d2
              · exact c2
              · rw [hu.6]; simp

/-- **C177**: it fails if a file cannot be read, and if the kernel's has fewer than four lines, or one that does not fit or is not text. -/
theorem C177_failure (utf8 : Bytes → Bool) {u : Uts} (hu : u.Ok) :
    (∀ sys, uname utf8 none sys u = (-1, u)) ∧
    (∀ host, (uname utf8 host none u).1 = -1) ∧
    (∀ host, ∀ l : Bytes, 64 < l.length → 0x0A ∉ l → ∀ r, l.getLast? ≠ some 0x0D → (uname utf8 host (some (l ++ 0x0A :: r)) u).1 = -1) ∧
    (∀ host, ∀ l : Bytes, 0x0A ∉ l → utf8 l = false → ∀ r, (uname utf8 host (some (l ++ 0x0A :: r)) u).1 = -1) ∧
    (∀ host, ∀ sys rel mach : Bytes, Name utf8 sys → Name utf8 rel → Name utf8 mach →
      (uname utf8 host (some []) u).1 = -1 ∧ (uname utf8 host (some (sys ++ [0x0A])) u).1 = -1 ∧ (uname utf8 host (some (sys ++ 0x0A :: (rel ++ [0x0A]))) u).1 = -1 ∧
      (uname utf8 host (some (sys ++ 0x0A :: (rel ++ 0x0A :: (mach ++ [0x0A])))) u).1 = -1) := by
  have hne : u.nodename ≠ [] := fun e => by have := hu.nodename; rw [e] at this; exact absurd this (by decide)
  have first : ∀ host s, readLine utf8 u.sysname s = none → (uname utf8 host (some s) u).1 = -1 := by
    intro host s h
    unfold uname
    split
    · rfl
    · dsimp only
      rw [h]
  have nil : ∀ dst, readLine utf8 dst [] = none := fun dst => rfl
  refine ⟨fun sys => ?_, fun host => ?_, fun host l hl hn r hc => ?_, fun host l hn hu8 r => ?_, fun host sys rel mach h1 h2 h3 => ⟨first host [] (nil _), ?_, ?_, ?_⟩⟩
  · unfold uname hostname
    rw [if_neg hne]
  · unfold uname
    split <;> rfl
  · apply first
    unfold readLine nextLine
    rw [if_neg (by simp)]
    dsimp only
    rw [takeWhile_line hn]
    by_cases h8 : utf8 l = false
    · rw [if_pos h8]
    · rw [if_neg h8, List.drop_left]
      dsimp only
      rw [if_neg hc, if_pos (by simp only [List.length_append, List.length_singleton]; omega)]
  · apply first
    unfold readLine nextLine
    rw [if_neg (by simp)]
    dsimp only
    rw [takeWhile_line hn, if_pos hu8]
  · unfold uname
    split
    · rfl
    · dsimp only
      rw [readLine_name h1]
      dsimp only
      rw [nil]
  · unfold uname
    split
    · rfl
    · dsimp only
      rw [readLine_name h1]
      dsimp only
      rw [readLine_name h2]
      dsimp only
      rw [nil]
  · unfold uname
    split
    · rfl
    · dsimp only
      rw [readLine_name h1]
      dsimp only
      rw [readLine_name h2]
      dsimp only
      rw [readLine_name h3]
      dsimp only
      rw [nil]

/-- **C177**, violated by the code: the line feed that ends `/etc/hostname` becomes part of the node name. -/
theorem C177_newline_violation {utf8 : Bytes → Bool} {u : Uts} (hu : u.Ok) {node sys rel mach ver : Bytes} (hn : node.length < 64 ∧ 0 ∉ node)
    (h1 : Name utf8 sys) (h2 : Name utf8 rel) (h3 : Name utf8 mach) (h4 : Name utf8 ver) :
    ∃ v, uname utf8 (some (node ++ [0x0A])) (some (sys ++ 0x0A :: (rel ++ 0x0A :: (mach ++ 0x0A :: (ver ++ [0x0A]))))) u = (0, v) ∧
      Holds v.nodename (node ++ [0x0A]) := by
  obtain ⟨v, e, h, _⟩ := C177_uname_partial (rest := []) hu (node := node ++ [0x0A])
    ⟨by simp only [List.length_append, List.length_singleton]; omega, fun h => by
      rcases List.mem_append.1 h with h | h
      · exact hn.2 h
      · exact absurd (List.mem_singleton.1 h) (by decide)⟩ h1 h2 h3 h4
  exact ⟨v, e, h⟩

def blank : Uts := ⟨List.replicate 65 7, List.replicate 65 7, List.replicate 65 7, List.replicate 65 7, List.replicate 65 7, List.replicate 65 7⟩

theorem blank_ok : blank.Ok := ⟨rfl, rfl, rfl, rfl, rfl, rfl⟩

example : ∃ v, uname (fun _ => true) (some [0x68]) (some [0x52, 0x0A, 0x31, 0x0A, 0x78, 0x0A, 0x76, 0x0A]) blank = (0, v) ∧ Holds v.nodename [0x68] ∧ Holds v.machine [0x78] := by
  have n : ∀ b : UInt8, b ≠ 0x0A → b ≠ 0 → b ≠ 0x0D → Name (fun _ => true) [b] := fun b h1 h2 h3 =>
    ⟨by simpa using fun e => h1 e.symm, by simpa using fun e => h2 e.symm, by simpa using h3, by simp, rfl⟩
  obtain ⟨v, e, h1, _, _, h4, _⟩ := C177_uname_partial (utf8 := fun _ => true) (rest := []) blank_ok (node := [0x68]) ⟨by decide, by decide⟩
    (n 0x52 (by decide) (by decide) (by decide)) (n 0x31 (by decide) (by decide) (by decide)) (n 0x78 (by decide) (by decide) (by decide)) (n 0x76 (by decide) (by decide) (by decide))
  exact ⟨v, e, h1, h4⟩

end Verif.Uname
