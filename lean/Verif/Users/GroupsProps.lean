import Verif.Users.GroupsModel
import Verif.Users.GrpExamples
/-!
# C155: `getgroups`
-/

namespace Verif.Users

open Verif.Net

theorem ptr_value {a : Nat} {buf : List UInt8} {p v : Nat} (h : Ptr a buf p v) :
    leValue ((buf.drop (p - a)).take 8) = v ∧ p - a + 8 ≤ buf.length := by
  obtain ⟨_, hv, pre, post, rfl, hp⟩ := h
  have h8 : (leBytes 8 v).length = 8 := leBytes_length 8 v
  refine ⟨?_, by simp [h8]; omega⟩
  rw [← hp, List.append_assoc, List.drop_left, List.take_append_of_le_length (by omega), List.take_of_length_le (by omega)]
  exact leValue_leBytes 8 v (by simpa using hv)

theorem hasMember_shows {a : Nat} {buf : List UInt8} {g : Grp} {u : Group} (h : GShows a buf g u) (user : List UInt8) :
    hasMember a buf user buf.length (g.mem - a) = u.members.contains user := by
  obtain ⟨_, _, _, hm, hz⟩ := h
  have hza := hz.1
  have hzv := ptr_value hz
  have ha : a ≤ g.mem := by
    cases hu : u.members with
    | nil => rw [hu] at hza; simpa using hza
    | cons m ms =>
      obtain ⟨v, h1, _⟩ := hm 0 m (by rw [hu]; rfl)
      simpa using h1.1
  have key : ∀ (k n i : Nat), i + k = u.members.length → k < n →
      hasMember a buf user n (g.mem - a + 8 * i) = (u.members.drop i).contains user := by
    intro k
    induction k with
    | zero =>
      intro n i hi hn
      cases n with
      | zero => omega
      | succ n =>
        have e : g.mem - a + 8 * i = g.mem + 8 * u.members.length - a := by omega
        unfold hasMember
        dsimp only
        rw [e, hzv.1, if_pos rfl, List.drop_eq_nil_of_le (by omega)]
        rfl
    | succ k ih =>
      intro n i hi hn
      cases n with
      | zero => omega
      | succ n =>
        have hlt : i < u.members.length := by omega
        obtain ⟨v, h1, h2, h3⟩ := hm i _ (List.getElem?_eq_getElem hlt)
        have e : g.mem - a + 8 * i = g.mem + 8 * i - a := by omega
        have e2 : g.mem - a + 8 * i + 8 = g.mem - a + 8 * (i + 1) := by omega
        unfold hasMember
        dsimp only
        rw [e2, ih n (i + 1) (by omega) (by omega), e, (ptr_value h1).1, if_neg h2, str_cstr h3.2, List.drop_eq_getElem_cons hlt,
          List.contains_cons]
        by_cases hu : u.members[i] = user
        · rw [if_pos hu, hu]; simp
        · rw [if_neg hu]
          have : (user == u.members[i]) = false := by simpa using fun e => hu e.symm
          rw [this, Bool.false_or]
  have := key u.members.length buf.length 0 (by omega) (by omega)
  simpa using this

theorem getgrent_step {redox : Bool} {valid : List UInt8 → Bool} (hv : ∀ l, valid (l ++ [0x0A]) = valid l) {a : Nat} {file l : List UInt8}
    {ls : List (List UInt8)} {u : Group} (hl : GLine redox valid l u) (hf : u.members.length ≤ 4096 ∧ a + u.size < 2 ^ 64) :
    ∃ o, getgrent redox valid a file (some (body (l :: ls))) = (some o, some (body ls)) ∧ GShows a o.buf o.ref u := by
  have hb : body (l :: ls) = l ++ (0x0A :: body ls) := by
    simp only [body, List.map_cons, List.flatten_cons, List.append_assoc, List.cons_append, List.nil_append]
  obtain ⟨line, e1, e2, e3, e4⟩ := gline_read hv hl (.inr ⟨body ls, rfl⟩)
  obtain ⟨o, p1, p2, _⟩ := parseGrp_line (a := a) (dest := none) hl ⟨hf.1, hf.2, by simp⟩
  refine ⟨o, ?_, p2⟩
  unfold getgrent
  dsimp only
  rw [Option.getD_some, hb, e1]
  simp only [e2, if_false, e3, Bool.true_eq_false, e4, p1, List.tail_cons]

theorem groupsOf_lines {redox : Bool} {valid : List UInt8 → Bool} (hv : ∀ l, valid (l ++ [0x0A]) = valid l) (a : Nat)
    (file user : List UInt8) : ∀ (ls : List (List UInt8)) (us : List Group) (n : Nat), GLines redox valid ls us →
    (∀ u ∈ us, u.members.length ≤ 4096 ∧ a + u.size < 2 ^ 64) → ls.length < n →
    groupsOf redox valid a file user n (some (body ls)) = memberOf user us
  | [], [], n, _, _, hn => by
    cases n with
    | zero => simp at hn
    | succ n => unfold groupsOf; rfl
  | l :: ls, u :: us, n, h, hf, hn => by
    cases n with
    | zero => simp at hn
    | succ n =>
      obtain ⟨o, e1, e2⟩ := getgrent_step hv (file := file) (ls := ls) h.1 (hf u (by simp))
      have ih := groupsOf_lines hv a file user ls us n h.2 (fun v hv => hf v (List.mem_cons_of_mem _ hv)) (by simp at hn; omega)
      unfold groupsOf
      rw [e1]
      dsimp only
      rw [hasMember_shows e2, ih, e2.2.2.1]
      unfold memberOf
      cases hc : u.members.contains user
      · rw [if_neg (by simp), List.filter_cons_of_neg (by simpa using hc)]
      · rw [if_pos rfl, List.filter_cons_of_pos (by simpa using hc), List.map_cons]
  | [], _ :: _, _, h, _, _ => absurd h (by simp [GLines])
  | _ :: _, [], _, h, _, _ => absurd h (by simp [GLines])

theorem body_length (ls : List (List UInt8)) : ls.length ≤ (body ls).length := by
  induction ls with
  | nil => simp [body]
  | cons l ls ih =>
    have hb : body (l :: ls) = l ++ (0x0A :: body ls) := by
      simp only [body, List.map_cons, List.flatten_cons, List.append_assoc, List.cons_append, List.nil_append]
    rw [hb]
    simp
    omega

/-- `getgroups` gives the ids of the groups that have the effective user as a member, in the order of the database, and their number;
with size 0 only the number; `EINVAL` if there are more than fit. Partial: every line of the group database must describe a group,
with at most 4096 members, and the user must be in the user database with lines before it that describe users. -/
theorem C155_getgroups_partial (redox : Bool) (valid : List UInt8 → Bool) (hv : ∀ l, valid (l ++ [0x0A]) = valid l) (a : Nat)
    (pls : List (List UInt8)) (pus : List User) (hp : Lines redox pls pus) (euid : Int) (hn : ∀ u ∈ pus, (u.uid : Int) ≠ euid)
    (pl rest : List UInt8) (user : User) (hu : Line redox pl user) (hid : (user.uid : Int) = euid) (hr : rest = [] ∨ ∃ t, rest = 0x0A :: t)
    (ls : List (List UInt8)) (us : List Group) (hl : GLines redox valid ls us)
    (hf : ∀ u ∈ us, u.members.length ≤ 4096 ∧ a + u.size < 2 ^ 64) (reader : Option (List UInt8)) :
    (∀ list, (getgroups redox valid a (body pls ++ pl ++ rest) (body ls) euid 0 list reader).ret = .ok (memberOf user.name us).length ∧
      (getgroups redox valid a (body pls ++ pl ++ rest) (body ls) euid 0 [] reader).list = []) ∧
    (∀ list : List Int, (memberOf user.name us).length ≤ list.length →
      (getgroups redox valid a (body pls ++ pl ++ rest) (body ls) euid list.length list reader).ret = .ok (memberOf user.name us).length ∧
      (getgroups redox valid a (body pls ++ pl ++ rest) (body ls) euid list.length list reader).list =
        memberOf user.name us ++ list.drop (memberOf user.name us).length) ∧
    (∀ list : List Int, 0 < list.length → list.length < (memberOf user.name us).length →
      (getgroups redox valid a (body pls ++ pl ++ rest) (body ls) euid list.length list reader).ret = .error 22 ∧
      (getgroups redox valid a (body pls ++ pl ++ rest) (body ls) euid list.length list reader).list.length = list.length) := by
  obtain ⟨o, e1, e2⟩ := (C87_getpwuid_partial redox euid pls pus hp hn).1 pl rest user hu hid hr
  have hname : cstr o.buf o.ref.name = user.name := str_cstr e2.1
  have hgo := groupsOf_lines hv a (body ls) user.name ls us ((body ls).length + 1) hl hf (by have := body_length ls; omega)
  have hall : ∀ (size : Int) (list : List Int), ¬ size < 0 →
      getgroups redox valid a (body pls ++ pl ++ rest) (body ls) euid size list reader =
        if size ≠ 0 ∧ ((memberOf user.name us).length : Int) > size then
          ⟨.error 22, (memberOf user.name us).take size.toNat ++ list.drop (memberOf user.name us).length, none⟩
        else ⟨.ok (memberOf user.name us).length, (memberOf user.name us).take size.toNat ++ list.drop (memberOf user.name us).length, none⟩ := by
    intro size list hs
    unfold getgroups
    rw [if_neg hs, e1]
    dsimp only
    rw [hname]
    unfold setgrent
    rw [hgo]
    rfl
  refine ⟨?_, ?_, ?_⟩
  · intro list
    rw [hall 0 list (by omega), hall 0 [] (by omega), if_neg (by simp), if_neg (by simp)]
    exact ⟨rfl, by simp⟩
  · intro list hle
    rw [hall _ list (by omega), if_neg (by omega)]
    refine ⟨rfl, ?_⟩
    dsimp only
    rw [Int.toNat_natCast, List.take_of_length_le hle]
  · intro list h0 hlt
    rw [hall _ list (by omega), if_pos (by omega)]
    refine ⟨rfl, ?_⟩
    dsimp only
    rw [Int.toNat_natCast]
    simp
    omega

/-- A negative size is `EINVAL`, and nothing is written. -/
theorem C155_negative (redox : Bool) (valid : List UInt8 → Bool) (a : Nat) (passwd group : List UInt8) (euid size : Int) (hs : size < 0)
    (list : List Int) (reader : Option (List UInt8)) :
    (getgroups redox valid a passwd group euid size list reader).ret = .error 22 ∧
    (getgroups redox valid a passwd group euid size list reader).list = list := by
  unfold getgroups
  rw [if_pos hs]
  exact ⟨rfl, rfl⟩

/-- Whatever the files are, no more than the array is written, and no more than `size` is returned for a size other than 0. -/
theorem C155_bounds (redox : Bool) (valid : List UInt8 → Bool) (a : Nat) (passwd group : List UInt8) (euid : Int) (list : List Int)
    (reader : Option (List UInt8)) :
    (getgroups redox valid a passwd group euid list.length list reader).list.length = list.length ∧
    ∀ n, (getgroups redox valid a passwd group euid list.length list reader).ret = .ok n → list ≠ [] → n ≤ list.length := by
  unfold getgroups
  rw [if_neg (by omega)]
  cases getpw redox (hasUid euid) passwd with
  | none => exact ⟨rfl, fun n h => by cases h⟩
  | some o =>
    dsimp only
    generalize groupsOf _ _ _ _ _ _ _ = gids
    have hlen : (gids.take ((list.length : Int)).toNat ++ list.drop gids.length).length = list.length := by
      rw [Int.toNat_natCast]; simp; omega
    split
    · exact ⟨hlen, fun n h => by cases h⟩
    · rename_i hc
      refine ⟨hlen, ?_⟩
      intro n h hne
      have : 0 < list.length := by cases list with | nil => exact absurd rfl hne | cons => simp
      cases h
      omega

/-- A process whose effective user is not in the user database gets `ENOENT`, not the groups it has. -/
theorem C155_unknown_violation (redox : Bool) (valid : List UInt8 → Bool) (a : Nat) (pls : List (List UInt8)) (pus : List User)
    (hp : Lines redox pls pus) (euid : Int) (hn : ∀ u ∈ pus, (u.uid : Int) ≠ euid) (group : List UInt8) (list : List Int)
    (reader : Option (List UInt8)) :
    (getgroups redox valid a (body pls) group euid list.length list reader).ret = .error 2 := by
  unfold getgroups
  rw [if_neg (by omega), (C87_getpwuid_partial redox euid pls pus hp hn).2]

/-- A call between two calls of `getgrent` makes the enumeration start again: after it, whatever was read before, the first group
comes next. -/
theorem C155_enumeration_violation (redox : Bool) (valid : List UInt8 → Bool) (hv : ∀ l, valid (l ++ [0x0A]) = valid l) (a : Nat)
    (pls : List (List UInt8)) (pus : List User) (hp : Lines redox pls pus) (euid : Int) (hn : ∀ u ∈ pus, (u.uid : Int) ≠ euid)
    (pl rest : List UInt8) (user : User) (hu : Line redox pl user) (hid : (user.uid : Int) = euid) (hr : rest = [] ∨ ∃ t, rest = 0x0A :: t)
    (l : List UInt8) (ls : List (List UInt8)) (u : Group) (hl : GLine redox valid l u)
    (hf : u.members.length ≤ 4096 ∧ a + u.size < 2 ^ 64) (list : List Int) (reader : Option (List UInt8)) :
    ∃ o, (getgrent redox valid a (body (l :: ls))
      (getgroups redox valid a (body pls ++ pl ++ rest) (body (l :: ls)) euid list.length list reader).reader).1 = some o ∧
      GShows a o.buf o.ref u := by
  obtain ⟨o, e1, _⟩ := (C87_getpwuid_partial redox euid pls pus hp hn).1 pl rest user hu hid hr
  have hreader : (getgroups redox valid a (body pls ++ pl ++ rest) (body (l :: ls)) euid list.length list reader).reader = none := by
    unfold getgroups
    rw [if_neg (by omega), e1]
    dsimp only
    split <;> rfl
  rw [hreader]
  obtain ⟨o', h1, h2⟩ := getgrent_step hv (a := a) (file := body (l :: ls)) (ls := ls) hl hf
  exact ⟨o', by
    have : getgrent redox valid a (body (l :: ls)) none = getgrent redox valid a (body (l :: ls)) (some (body (l :: ls))) := rfl
    rw [this, h1], h2⟩

/-- "bob" is in one group of two. -/
example : ∀ list : List Int, list = [7, 8] →
    (getgroups false ascii7 0x7000 (body [rootLine] ++ bobLine ++ []) (body [bobsLine, wheelLine]) 1000 list.length list none).list = [10, 8] := by
  intro list e
  have := ((C155_getgroups_partial false ascii7 ascii7_newline 0x7000 [rootLine] [root] ⟨root_line, trivial⟩ 1000 (by decide +kernel)
    bobLine [] bob bob_line (by decide +kernel) (.inl rfl) [bobsLine, wheelLine] [bobs, wheel] ⟨bobs_line, wheel_line, trivial⟩
    (by decide +kernel) none).2.1 list (by rw [e]; decide +kernel)).2
  rw [this, e]
  decide +kernel

end Verif.Users
