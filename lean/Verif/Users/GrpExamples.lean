import Verif.Users.GrpProps
import Verif.Users.PwdExamples
/-!
# C88: where the group database goes wrong, and examples

Bytes below 0x80 are UTF-8.
-/

namespace Verif.Users

open Verif.Net

/-- All ASCII: enough for these files. -/
def ascii7 (l : List UInt8) : Bool := l.all (· < 0x80)

theorem ascii7_newline (l : List UInt8) : ascii7 (l ++ [0x0A]) = ascii7 l := by
  unfold ascii7
  rw [List.all_append]
  simp

/-- The group "wheel" of two members. -/
def wheel : Group := ⟨txt "wheel", txt "x", 10, [txt "root", txt "bob"]⟩

/-- The group "bob". -/
def bobs : Group := ⟨txt "bob", txt "x", 100, []⟩

def wheelLine : List UInt8 := txt "wheel:x:10:root,bob"
def bobsLine : List UInt8 := txt "bob:x:100:"

theorem gline_of {redox : Bool} {l : List UInt8} {u : Group} (gt : List UInt8) (h1 : accDigits 31 10 0 gt = some u.gid)
    (h3 : l = List.intercalate [if redox then 0x3B else 0x3A] (u.fields gt) ∧
      (∀ w ∈ u.fields gt, (if redox then 0x3B else 0x3A) ∉ w ∧ 0 ∉ w ∧ 0x0A ∉ w) ∧
      (∀ m ∈ u.members, m ≠ [] ∧ 0x2C ∉ m) ∧ l.getLast? ≠ some 0x0D ∧ ascii7 l = true) (h4 : gt ≠ [] := by decide +kernel) :
    GLine redox ascii7 l u := by
  obtain ⟨a1, a2⟩ := (acc_iff (by decide) (by decide) h4).1 h1
  exact ⟨gt, a1, a2, h3⟩

theorem wheel_line : GLine false ascii7 wheelLine wheel := gline_of (txt "10") (by decide +kernel) (by decide +kernel)

theorem bobs_line : GLine false ascii7 bobsLine bobs := gline_of (txt "100") (by decide +kernel) (by decide +kernel)

/-- "wheel" is found behind "bob", by its id, with both members. -/
example : ∃ o, getgr false ascii7 0x7000 (hasGid 10) (body [bobsLine] ++ wheelLine ++ []) = some o ∧ GShows 0x7000 o.buf o.ref wheel :=
  (C88_getgrgid_partial false ascii7 ascii7_newline 0x7000 10 [bobsLine] [bobs] ⟨bobs_line, trivial⟩ (by decide +kernel)
    (by decide +kernel)).1 wheelLine [] wheel wheel_line (by decide +kernel) (.inl rfl) (by decide +kernel) (by decide +kernel)

/-- And by its name. -/
example : ∃ o, getgr false ascii7 0x7000 (likeName 0x7000 (txt "wheel")) (body [bobsLine] ++ wheelLine ++ []) = some o ∧
    GShows 0x7000 o.buf o.ref wheel :=
  (C88_getgrnam_partial false ascii7 ascii7_newline 0x7000 (txt "wheel") [bobsLine] [bobs] ⟨bobs_line, trivial⟩ (by decide +kernel)
    (by decide +kernel)).1 wheelLine [] wheel wheel_line (by decide +kernel) (.inl rfl) (by decide +kernel) (by decide +kernel)

/-- In a buffer of 47 bytes, just enough. -/
example : ∃ g buf', getgrgidR false ascii7 0x7000 10 (body [bobsLine] ++ wheelLine ++ []) (List.replicate 47 0xFF) = ⟨0, .entry g, buf'⟩ ∧
    GShows 0x7000 buf' g wheel := by
  obtain ⟨g, b, h1, h2, _⟩ := (C88_getgrgid_r_partial false ascii7 ascii7_newline 0x7000 10 [bobsLine] [bobs] ⟨bobs_line, trivial⟩
    (by decide +kernel) (List.replicate 47 0xFF) (by decide +kernel) (by decide +kernel)).1 wheelLine [] wheel wheel_line (by decide +kernel)
    (.inl rfl) (by decide +kernel) (by decide +kernel)
  exact ⟨g, b, h1, h2⟩

example : wheel.size = 45 := by decide +kernel

/-- One after the other. -/
example : GAgree 0x7000 (grRun false ascii7 0x7000 (body [bobsLine, wheelLine]) none [.next, .next, .next, .close, .next])
    [some bobs, some wheel, none, some bobs] :=
  C88_getgrent_partial false ascii7 ascii7_newline 0x7000 [bobsLine, wheelLine] [bobs, wheel] ⟨bobs_line, wheel_line, trivial⟩
    (by decide +kernel) _

/-- The groups of "root". -/
example : getgrouplist false ascii7 (body [bobsLine, wheelLine]) (txt "root") 0 [-7, -7] = some ⟨1, 1, [10, -7]⟩ := by decide +kernel

/-- `getgrnam` finds "wheel" for "w", for "wheelbarrow", and any group for the empty name. -/
theorem C88_getgrnam_violation :
    (∀ name ∈ [txt "w", txt "wheelbarrow", []], (getgr false ascii7 0x7000 (likeName 0x7000 name) (body [wheelLine])).isSome = true ∧ name ≠ wheel.name) ∧
    GLine false ascii7 wheelLine wheel :=
  ⟨by decide +kernel, wheel_line⟩

/-- The group "bob" is not found if the group "bobby" comes before. -/
theorem C88_order_violation : ∃ o, getgr false ascii7 0x7000 (likeName 0x7000 (txt "bob")) (body [txt "bobby:x:101:", bobsLine]) = some o ∧
    o.ref.gid = 101 ∧ bobs.gid = 100 ∧ bobs.name = txt "bob" ∧ GLine false ascii7 bobsLine bobs := by
  refine ⟨(getgr false ascii7 0x7000 (likeName 0x7000 (txt "bob")) (body [txt "bobby:x:101:", bobsLine])).get (by decide +kernel), ?_, ?_, ?_⟩
  · rw [Option.some_get]
  · decide +kernel
  · exact ⟨rfl, rfl, bobs_line⟩

/-- `getgrnam_r`: for a group that is not there `ENOENT` is returned instead of 0, and `*result` is not set to NULL. -/
theorem C88_getgrnam_r_violation : (getgrnamR false ascii7 0x7000 (txt "tape") (body [wheelLine]) (List.replicate 64 0)).ret = 2 ∧
    (getgrnamR false ascii7 0x7000 (txt "tape") (body [wheelLine]) (List.replicate 64 0)).result = .unset := by decide +kernel

/-- Too small a buffer: `EINVAL` instead of `ERANGE`. -/
theorem C88_range_violation : (getgrnamR false ascii7 0x7000 (txt "wheel") (body [wheelLine]) (List.replicate 20 0)).ret = 22 ∧
    (getgrgidR false ascii7 0x7000 10 (body [wheelLine]) (List.replicate 20 0)).ret = 34 := by decide +kernel

/-- A line that does not describe a group, a comment for example, ends the search. -/
theorem C88_comment_violation : getgr false ascii7 0x7000 (hasGid 10) (body [txt "# groups", wheelLine]) = none ∧
    getgr false ascii7 0x7000 (hasGid 10) (body [txt "nogroup:x:4294967294:", wheelLine]) = none ∧
    GLine false ascii7 wheelLine wheel := ⟨by decide +kernel, by decide +kernel, wheel_line⟩

/-- The array of pointers is not aligned: its address is not a multiple of 8, though the buffer's is. -/
theorem C88_align_violation : ∃ g buf', getgrgidR false ascii7 0x7000 10 (body [wheelLine]) (List.replicate 64 0) = ⟨0, .entry g, buf'⟩ ∧
    g.mem % 8 ≠ 0 ∧ 0x7000 % 8 = 0 :=
  ⟨⟨0x7004, 0x700A, 10, 0x700C⟩, (getgrgidR false ascii7 0x7000 10 (body [wheelLine]) (List.replicate 64 0)).buf, by decide +kernel,
    by decide, by decide⟩

/-- `getgrouplist` and `initgroups` leave out the group given. -/
theorem C88_getgrouplist_violation : getgrouplist false ascii7 (body [wheelLine]) (txt "bob") 100 [0, 0] = some ⟨1, 1, [10, 0]⟩ := by
  decide +kernel

/-- A comment makes `getgrouplist` panic. So does a group id that is not an `int`. -/
theorem C88_panic_violation : (∀ gid groups, getgrouplist false ascii7 (body [txt "# a:b:c", wheelLine]) (txt "bob") gid groups = none) ∧
    ∀ gid groups, getgrouplist false ascii7 (body [txt "nogroup:x:4294967294:", wheelLine]) (txt "bob") gid groups = none := by
  constructor
  · intro gid groups
    have h : groupLoop false ascii7 (txt "bob") (body [txt "# a:b:c", wheelLine]) = none := by
      have : (groupLoop false ascii7 (txt "bob") (body [txt "# a:b:c", wheelLine])).isNone = true := by decide +kernel
      simpa using this
    unfold getgrouplist
    rw [if_neg (by decide +kernel), h]
  · intro gid groups
    have h : groupLoop false ascii7 (txt "bob") (body [txt "nogroup:x:4294967294:", wheelLine]) = none := by
      have : (groupLoop false ascii7 (txt "bob") (body [txt "nogroup:x:4294967294:", wheelLine])).isNone = true := by decide +kernel
      simpa using this
    unfold getgrouplist
    rw [if_neg (by decide +kernel), h]

/-- A group without an id is the group -1. -/
theorem C88_noid_violation : getgrouplist false ascii7 (body [txt "odd:x"]) [] 0 [7] = some ⟨1, 1, [-1]⟩ := by decide +kernel

/-! ### Many members -/

/-- The loop of 4096 turns adjusts 4096 pointers. -/
theorem adjust_more (a : Nat) (p t : List UInt8) (rest : List Nat) (ws : List Nat) :
    ∀ (done : List Nat), (∀ v ∈ ws, v ≠ 0 ∧ v + a < 2 ^ 64) →
    adjust a ws.length (p.length + 8 * done.length) (p ++ words done ++ words ws ++ words rest ++ t) =
      p ++ words done ++ words (ws.map (· + a)) ++ words rest ++ t := by
  induction ws with
  | nil => intro done _; rfl
  | cons v ws ih =>
    intro done hv
    obtain ⟨hv0, hva⟩ := hv v (by simp)
    rw [List.length_cons, adjust]
    have hp : p.length + 8 * done.length = (p ++ words done).length := by rw [List.length_append, words_length]
    have hcons : words (v :: ws) = leBytes 8 v ++ words ws := by simp [words]
    have hw : ((p ++ words done ++ words (v :: ws) ++ words rest ++ t).drop (p.length + 8 * done.length)).take 8 = leBytes 8 v := by
      rw [hp, hcons]
      simp only [List.append_assoc]
      rw [← List.append_assoc p, List.drop_left, List.take_left' (leBytes_length 8 v)]
    rw [hw, leValue_leBytes 8 v (by omega), if_neg hv0, Nat.mod_eq_of_lt hva]
    have how : overwrite (p ++ words done ++ words (v :: ws) ++ words rest ++ t) (p.length + 8 * done.length) (leBytes 8 (v + a))
        = p ++ words (done ++ [v + a]) ++ words ws ++ words rest ++ t := by
      rw [hp, hcons, words_append]
      have := overwrite_mid (p ++ words done) (leBytes 8 (v + a)) (leBytes 8 v) (words ws ++ words rest ++ t)
        (by rw [leBytes_length, leBytes_length])
      simp only [List.append_assoc] at this ⊢
      rw [this]
      simp [words]
    rw [how]
    have hd : p.length + 8 * done.length + 8 = p.length + 8 * (done ++ [v + a]).length := by
      simp only [List.length_append, List.length_cons, List.length_nil]; omega
    rw [hd, ih (done ++ [v + a]) fun w hw => hv w (List.mem_cons_of_mem _ hw)]
    rw [words_append, List.map_cons]
    simp [words]

/-- In a group of more than 4096 members the pointers from the 4097th on do not point into the buffer but to small addresses. -/
theorem C88_many_violation (redox : Bool) (valid : List UInt8 → Bool) (hv : ∀ l, valid (l ++ [0x0A]) = valid l) (a : Nat)
    (l : List UInt8) (u : Group) (h : GLine redox valid l u) (hm : 4096 < u.members.length) (ha : a + u.size < 2 ^ 64) :
    ∃ o v, getgr redox valid a (hasGid u.gid) (body [l]) = some o ∧ Ptr a o.buf (o.ref.mem + 8 * 4096) v ∧ v < u.size := by
  obtain ⟨h1, hn, hp, hz⟩ := grpBytes_line h
  have hh := h
  obtain ⟨_, _, hg, _⟩ := h
  generalize hO : offs (u.head.length + 8 * u.members.length + 8) u.members = O at *
  have hOl : O.length = u.members.length := by rw [← hO, offs_length]
  have hs : u.head.length + 8 * u.members.length + 8 + (strs u.members).length = u.size := by
    rw [strs_length, head_length, Group.size]; omega
  have hOb : ∀ v ∈ O, v ≠ 0 ∧ v + a < 2 ^ 64 ∧ v < u.size := by
    intro v hv
    rw [← hO] at hv
    have := offs_bound hv
    omega
  have hb0 : u.bytes 0 = u.head ++ words (O.take 4096) ++ words (O.drop 4096) ++ (List.replicate 8 0 ++ strs u.members) := by
    have : words (O.take 4096) ++ words (O.drop 4096) = words O := by rw [← words_append, List.take_append_drop]
    rw [List.append_assoc u.head, this]
    unfold Group.bytes
    rw [hO]
    simp
  have ht : (O.take 4096).length = 4096 := by rw [List.length_take]; omega
  have hadj : adjust a 4096 u.head.length (u.bytes 0) =
      u.head ++ words ((O.take 4096).map (· + a)) ++ words (O.drop 4096) ++ (List.replicate 8 0 ++ strs u.members) := by
    have := adjust_more a u.head (List.replicate 8 0 ++ strs u.members) (O.drop 4096) (O.take 4096) []
      (fun v hv => ⟨(hOb v (List.mem_of_mem_take hv)).1, (hOb v (List.mem_of_mem_take hv)).2.1⟩)
    rw [ht] at this
    rw [hb0]
    simpa [words] using this
  have hdrop : (u.bytes 0).drop 4 = u.name ++ 0 :: (u.passwd ++ 0 :: (words O ++ List.replicate 8 0 ++ strs u.members)) := by
    unfold Group.bytes Group.head at *
    simp only [List.append_assoc] at hO ⊢
    rw [List.drop_left' (leBytes_length 4 _)]
    simp only [List.cons_append, List.nil_append, Nat.add_zero, List.map_id_fun', id_eq] at hO ⊢
    rw [hO]
  have htake : (u.bytes 0).take 4 = leBytes 4 u.gid := by
    unfold Group.bytes Group.head
    simp only [List.append_assoc]
    rw [List.take_left' (leBytes_length 4 _)]
  have hmem : 4 + u.name.length + 1 + u.passwd.length + 1 = u.head.length := by rw [head_length]; omega
  have hsplit : splitGrp a (u.bytes 0) = some (⟨a + 4, a + (4 + u.name.length + 1), u.gid, a + u.head.length⟩,
      u.head ++ words ((O.take 4096).map (· + a)) ++ words (O.drop 4096) ++ (List.replicate 8 0 ++ strs u.members)) := by
    unfold splitGrp
    rw [hdrop, split_cons hn, split_cons hp]
    generalize hr : split 0 (words O ++ List.replicate 8 0 ++ strs u.members) = r
    cases r with
    | nil => exact absurd hr (split_ne _ _)
    | cons w r =>
      simp only [positions]
      rw [htake, leValue_leBytes 4 _ (by omega), hmem, hadj]
      unfold toInt32
      rw [if_pos hg]
  have hd : O.drop 4096 = O[4096] :: O.drop 4097 := List.drop_eq_getElem_cons (by omega)
  obtain ⟨line, e1, e2, e3, e4⟩ := gline_read (rest := [0x0A]) hv hh (.inr ⟨[], rfl⟩)
  refine ⟨⟨u.head ++ words ((O.take 4096).map (· + a)) ++ words (O.drop 4096) ++ (List.replicate 8 0 ++ strs u.members), ⟨a + 4, a + (4 + u.name.length + 1), u.gid, a + u.head.length⟩⟩, O[4096], ?_, ⟨?_, ?_, ?_⟩, ?_⟩
  · unfold getgr
    have hb : body [l] = l ++ [0x0A] := by simp [body]
    rw [hb, searchGrp, e1]
    simp only [e2, dite_false, e3, Bool.true_eq_false, if_false, e4, parseGrp, h1, hsplit, hasGid, beq_self_eq_true, if_true]
  · dsimp only; omega
  · have := hOb O[4096] (List.getElem_mem _); omega
  · refine ⟨u.head ++ words ((O.take 4096).map (· + a)), words (O.drop 4097) ++ (List.replicate 8 0 ++ strs u.members), ?_, ?_⟩
    · dsimp only
      have hc : words (O[4096] :: O.drop 4097) = leBytes 8 O[4096] ++ words (O.drop 4097) := by simp only [words, List.flatMap_cons]
      rw [hd, hc]
      simp only [List.append_assoc]
    · rw [List.length_append, words_length, List.length_map, ht]
      dsimp only; omega
  · exact (hOb O[4096] (List.getElem_mem _)).2.2

end Verif.Users
