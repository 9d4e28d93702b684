import Verif.Users.GrpModel
import Verif.Users.PwdProps
import Verif.Net.EndianProps
/-!
# C88: groups are found in the group database
-/

namespace Verif.Users

open Verif.Net

/-- A group. -/
structure Group where
  name : List UInt8
  passwd : List UInt8
  gid : Nat
  members : List (List UInt8)
deriving DecidableEq

/-- The fields of the line of a group; `gt` is the id in decimal. -/
def Group.fields (u : Group) (gt : List UInt8) : List (List UInt8) := [u.name, u.passwd, gt, List.intercalate [0x2C] u.members]

/-- The line `l` describes the group `u`. -/
def GLine (redox : Bool) (valid : List UInt8 → Bool) (l : List UInt8) (u : Group) : Prop :=
  ∃ gt, Numeral 10 gt u.gid ∧ u.gid < 2 ^ 31 ∧
    l = List.intercalate [if redox then 0x3B else 0x3A] (u.fields gt) ∧
    (∀ w ∈ u.fields gt, (if redox then 0x3B else 0x3A) ∉ w ∧ 0 ∉ w ∧ 0x0A ∉ w) ∧
    (∀ m ∈ u.members, m ≠ [] ∧ 0x2C ∉ m) ∧ l.getLast? ≠ some 0x0D ∧ valid l = true

/-- There is a NUL-terminated string at the address, in the buffer at the address `a`. -/
def At (a : Nat) (buf : List UInt8) (p : Nat) (s : List UInt8) : Prop := a ≤ p ∧ Str buf (p - a) s

/-- There is a pointer at the address, in the buffer at the address `a`. -/
def Ptr (a : Nat) (buf : List UInt8) (p v : Nat) : Prop :=
  a ≤ p ∧ v < 2 ^ 64 ∧ ∃ pre post, buf = pre ++ leBytes 8 v ++ post ∧ pre.length = p - a

/-- The structure describes the group. -/
def GShows (a : Nat) (buf : List UInt8) (g : Grp) (u : Group) : Prop :=
  At a buf g.name u.name ∧ At a buf g.passwd u.passwd ∧ g.gid = (u.gid : Int) ∧
    (∀ (i : Nat) (m : List UInt8), u.members[i]? = some m → ∃ v, Ptr a buf (g.mem + 8 * i) v ∧ v ≠ 0 ∧ At a buf v m) ∧
    Ptr a buf (g.mem + 8 * u.members.length) 0

/-- The bytes needed: the id, the strings with their NULs, the pointers. -/
def Group.size (u : Group) : Nat :=
  4 + (u.name.length + 1) + (u.passwd.length + 1) + 8 * (u.members.length + 1) + (u.members.map fun m => m.length + 1).sum

/-! ### The bytes of an entry -/

/-- The pointers. -/
def words (l : List Nat) : List UInt8 := l.flatMap (leBytes 8)

/-- The members. -/
def strs (ms : List (List UInt8)) : List UInt8 := ms.flatMap fun m => m ++ [0]

/-- Where the members are, if the first is at `o`. -/
def offs (o : Nat) : List (List UInt8) → List Nat
  | [] => []
  | m :: ms => o :: offs (o + m.length + 1) ms

theorem words_length (l : List Nat) : (words l).length = 8 * l.length := by
  induction l with
  | nil => rfl
  | cons v l ih => simp only [words, List.flatMap_cons, List.length_append, leBytes_length, List.length_cons] at ih ⊢; omega

theorem words_append (l k : List Nat) : words (l ++ k) = words l ++ words k := List.flatMap_append

theorem strs_length (ms : List (List UInt8)) : (strs ms).length = (ms.map fun m => m.length + 1).sum := by
  induction ms with
  | nil => rfl
  | cons m ms ih => simp only [strs, List.flatMap_cons, List.length_append, List.length_cons, List.length_nil, List.map_cons, List.sum_cons] at ih ⊢; omega

theorem offs_length (o : Nat) (ms : List (List UInt8)) : (offs o ms).length = ms.length := by
  induction ms generalizing o with
  | nil => rfl
  | cons m ms ih => simp [offs, ih]

theorem offs_bound {o : Nat} {ms : List (List UInt8)} {v : Nat} (h : v ∈ offs o ms) : o ≤ v ∧ v < o + (strs ms).length := by
  induction ms generalizing o with
  | nil => simp [offs] at h
  | cons m ms ih =>
    have hs : (strs (m :: ms)).length = m.length + 1 + (strs ms).length := by
      simp only [strs, List.flatMap_cons, List.length_append, List.length_cons, List.length_nil]
    rw [offs, List.mem_cons] at h
    rcases h with rfl | h
    · omega
    · have := ih h; omega

theorem offs_str (ms : List (List UInt8)) (hz : ∀ m ∈ ms, 0 ∉ m) :
    ∀ (pre post : List UInt8) (i : Nat) (m : List UInt8), ms[i]? = some m →
    ∃ o, (offs pre.length ms)[i]? = some o ∧ Str (pre ++ strs ms ++ post) o m := by
  induction ms with
  | nil => intro _ _ i m h; simp at h
  | cons x ms ih =>
    intro pre post i m h
    have hs : strs (x :: ms) = x ++ [0] ++ strs ms := by simp [strs]
    cases i with
    | zero =>
      simp at h; subst h
      refine ⟨pre.length, rfl, pre, strs ms ++ post, ?_, rfl, hz _ (by simp)⟩
      rw [hs]; simp
    | succ i =>
      rw [List.getElem?_cons_succ] at h
      obtain ⟨o, h1, h2⟩ := ih (fun m hm => hz m (List.mem_cons_of_mem _ hm)) (pre ++ x ++ [0]) post i m h
      have hl : (pre ++ x ++ [0]).length = pre.length + x.length + 1 := by simp only [List.length_append, List.length_cons, List.length_nil]
      rw [hl] at h1
      refine ⟨o, by rw [offs, List.getElem?_cons_succ]; exact h1, ?_⟩
      rw [hs]
      simpa using h2

theorem overwrite_mid (p w m t : List UInt8) (h : w.length = m.length) : overwrite (p ++ m ++ t) p.length w = p ++ w ++ t := by
  unfold overwrite
  have h1 : (p ++ m ++ t).take p.length = p := by rw [List.append_assoc, List.take_left]
  have h2 : (p ++ m ++ t).drop (p.length + w.length) = t := by
    rw [h, ← List.length_append, List.drop_left]
  rw [h1, h2]

theorem fill_eq (p z : List UInt8) (ms : List (List UInt8)) :
    ∀ (done : List Nat) (s : List UInt8),
    fill p.length done.length ms (p ++ words done ++ List.replicate (8 * ms.length) 0 ++ z ++ s) =
      p ++ words (done ++ offs (p.length + 8 * (done.length + ms.length) + z.length + s.length) ms) ++ z ++ s ++ strs ms := by
  induction ms with
  | nil => intro done s; simp [fill, offs, strs]
  | cons m ms ih =>
    intro done s
    have hlen : (p ++ words done ++ List.replicate (8 * (m :: ms).length) 0 ++ z ++ s).length
        = p.length + 8 * (done.length + (m :: ms).length) + z.length + s.length := by
      simp only [List.length_append, words_length, List.length_replicate]; omega
    rw [fill, hlen]
    generalize ho : p.length + 8 * (done.length + (m :: ms).length) + z.length + s.length = o
    have hrep : List.replicate (8 * (m :: ms).length) (0 : UInt8) = List.replicate 8 0 ++ List.replicate (8 * ms.length) 0 := by
      rw [List.replicate_append_replicate]; congr 1; simp only [List.length_cons]; omega
    have hst : p.length + done.length * 8 = (p ++ words done).length := by simp only [List.length_append, words_length]; omega
    have how : overwrite (p ++ words done ++ List.replicate (8 * (m :: ms).length) 0 ++ z ++ s) (p.length + done.length * 8) (leBytes 8 o)
        = p ++ words done ++ leBytes 8 o ++ (List.replicate (8 * ms.length) 0 ++ z ++ s) := by
      rw [hst, hrep]
      have := overwrite_mid (p ++ words done) (leBytes 8 o) (List.replicate 8 0) (List.replicate (8 * ms.length) 0 ++ z ++ s)
        (by rw [leBytes_length, List.length_replicate])
      simp only [List.append_assoc] at this ⊢
      exact this
    rw [how]
    have hd : (done ++ [o]).length = done.length + 1 := by simp
    have := ih (done ++ [o]) (s ++ m ++ [0])
    rw [hd] at this
    have hw : words (done ++ [o]) = words done ++ leBytes 8 o := by rw [words_append]; simp [words]
    rw [hw] at this
    have ho2 : p.length + 8 * (done.length + 1 + ms.length) + z.length + (s ++ m ++ [0]).length = o + m.length + 1 := by
      rw [← ho]; simp only [List.length_append, List.length_cons, List.length_nil]; omega
    rw [ho2] at this
    have hs : strs (m :: ms) = m ++ [0] ++ strs ms := by simp [strs]
    rw [hs, offs]
    simp only [List.append_assoc, List.cons_append, List.nil_append] at this ⊢
    exact this

theorem adjust_eq (a : Nat) (p t : List UInt8) (ws : List Nat) :
    ∀ (done : List Nat) (n : Nat), ws.length ≤ n → (∀ v ∈ ws, v ≠ 0 ∧ v + a < 2 ^ 64) →
    adjust a n (p.length + 8 * done.length) (p ++ words done ++ words ws ++ List.replicate 8 0 ++ t) =
      p ++ words done ++ words (ws.map (· + a)) ++ List.replicate 8 0 ++ t := by
  induction ws with
  | nil =>
    intro done n _ _
    cases n with
    | zero => rfl
    | succ n =>
      rw [adjust]
      have hp : p.length + 8 * done.length = (p ++ words done).length := by rw [List.length_append, words_length]
      have hw : ((p ++ words done ++ words [] ++ List.replicate 8 0 ++ t).drop (p.length + 8 * done.length)).take 8 = List.replicate 8 0 := by
        rw [hp]
        simp only [words, List.flatMap_nil, List.append_nil]
        rw [List.append_assoc (p ++ _), List.drop_left]
        rw [List.take_left' (by simp)]
      rw [hw]
      rfl
  | cons v ws ih =>
    intro done n hn hv
    cases n with
    | zero => simp at hn
    | succ n =>
      obtain ⟨hv0, hva⟩ := hv v (by simp)
      rw [adjust]
      have hp : p.length + 8 * done.length = (p ++ words done).length := by rw [List.length_append, words_length]
      have hcons : words (v :: ws) = leBytes 8 v ++ words ws := by simp [words]
      have hw : ((p ++ words done ++ words (v :: ws) ++ List.replicate 8 0 ++ t).drop (p.length + 8 * done.length)).take 8 = leBytes 8 v := by
        rw [hp, hcons]
        simp only [List.append_assoc]
        rw [← List.append_assoc p, List.drop_left, List.take_left' (leBytes_length 8 v)]
      rw [hw, leValue_leBytes 8 v (by omega)]
      rw [if_neg hv0, Nat.mod_eq_of_lt hva]
      have how : overwrite (p ++ words done ++ words (v :: ws) ++ List.replicate 8 0 ++ t) (p.length + 8 * done.length) (leBytes 8 (v + a))
          = p ++ words (done ++ [v + a]) ++ words ws ++ List.replicate 8 0 ++ t := by
        rw [hp, hcons, words_append]
        have := overwrite_mid (p ++ words done) (leBytes 8 (v + a)) (leBytes 8 v) (words ws ++ List.replicate 8 0 ++ t)
          (by rw [leBytes_length, leBytes_length])
        simp only [List.append_assoc] at this ⊢
        rw [this]
        simp [words]
      rw [how]
      have hd : p.length + 8 * done.length + 8 = p.length + 8 * (done ++ [v + a]).length := by
        simp only [List.length_append, List.length_cons, List.length_nil]; omega
      rw [hd, ih (done ++ [v + a]) n (by simp at hn; omega) fun w hw => hv w (List.mem_cons_of_mem _ hw)]
      rw [words_append, List.map_cons]
      simp [words]

theorem members_join (ms : List (List UInt8)) (h : ∀ m ∈ ms, m ≠ [] ∧ 0x2C ∉ m) : members (List.intercalate [0x2C] ms) = ms := by
  unfold members
  cases ms with
  | nil => rfl
  | cons m ms =>
    rw [split_intercalate (by simp) fun w hw => (h w hw).2]
    rw [List.filter_eq_self]
    intro w hw
    have := (h w hw).1
    cases w with
    | nil => exact absurd rfl this
    | cons b w => rfl

/-- What is in the buffer before the pointers. -/
def Group.head (u : Group) : List UInt8 := leBytes 4 u.gid ++ u.name ++ [0] ++ u.passwd ++ [0]

theorem head_length (u : Group) : u.head.length = 4 + (u.name.length + 1) + (u.passwd.length + 1) := by
  simp only [Group.head, List.length_append, leBytes_length, List.length_cons, List.length_nil]; omega

/-- The bytes of a group, with the pointers increased by `a`. -/
def Group.bytes (u : Group) (a : Nat) : List UInt8 :=
  u.head ++ words ((offs (u.head.length + 8 * u.members.length + 8) u.members).map (· + a)) ++ List.replicate 8 0 ++ strs u.members

theorem bytes_length (u : Group) (a : Nat) : (u.bytes a).length = u.size := by
  simp only [Group.bytes, List.length_append, words_length, List.length_map, offs_length, List.length_replicate, strs_length, head_length,
    Group.size]
  omega

theorem grpBytes_line {redox : Bool} {valid : List UInt8 → Bool} {l : List UInt8} {u : Group} (h : GLine redox valid l u) :
    grpBytes redox l = some (u.bytes 0) ∧ 0 ∉ u.name ∧ 0 ∉ u.passwd ∧ ∀ m ∈ u.members, 0 ∉ m := by
  obtain ⟨gt, hg, hg2, hl, hw, hm, _, _⟩ := h
  have hz : ∀ w ∈ u.fields gt, 0 ∉ w := fun w h => (hw w h).2.1
  have hmap : l.map (fun b => if b = sep redox then 0 else b) = List.intercalate [0] (u.fields gt) := by
    rw [hl]
    exact map_sep _ _ fun w h => (hw w h).1
  have hsplit := split_join (u.fields gt) hz (by simp [Group.fields]) []
  refine ⟨?_, hz _ (by simp [Group.fields]), hz _ (by simp [Group.fields]), ?_⟩
  · unfold grpBytes
    rw [hmap, hsplit]
    simp only [Group.fields, List.cons_append, parseInt_of (bits := 32) hg hg2, Option.bind_eq_bind, Option.bind_some]
    rw [members_join _ hm]
    have hgid : (((u.gid : Int) % 2 ^ 32)).toNat = u.gid := by omega
    rw [hgid]
    have := fill_eq u.head (List.replicate 8 0) u.members [] []
    simp only [words, List.flatMap_nil, List.append_nil, List.length_nil, Nat.zero_add, List.nil_append, List.length_replicate,
      Nat.add_zero] at this
    unfold Group.bytes
    simp only [words, Nat.add_zero, List.map_id_fun', id_eq]
    unfold Group.head at this ⊢
    rw [this]
  · intro m hmm h0
    refine hz (List.intercalate [0x2C] u.members) (by simp [Group.fields]) ?_
    have : ∀ (ms : List (List UInt8)), m ∈ ms → 0 ∈ List.intercalate [0x2C] ms := by
      intro ms
      induction ms with
      | nil => intro h; simp at h
      | cons x ms ih =>
        intro h
        cases ms with
        | nil => simp at h; subst h; simpa [List.intercalate] using h0
        | cons y ms =>
          have hj : List.intercalate [0x2C] (x :: y :: ms) = x ++ 0x2C :: List.intercalate [0x2C] (y :: ms) := by simp [List.intercalate]
          rw [hj, List.mem_append, List.mem_cons]
          rcases List.mem_cons.1 h with rfl | h
          · exact .inl h0
          · exact .inr (.inr (ih h))
    exact this _ hmm

theorem splitGrp_line {u : Group} {a : Nat} (tail : List UInt8) (hg : u.gid < 2 ^ 31) (hn : 0 ∉ u.name) (hp : 0 ∉ u.passwd)
    (hm : ∀ m ∈ u.members, 0 ∉ m) (h4 : u.members.length ≤ 4096) (ha : a + u.size < 2 ^ 64) :
    ∃ g, splitGrp a (u.bytes 0 ++ tail) = some (g, u.bytes a ++ tail) ∧ GShows a (u.bytes a ++ tail) g u := by
  have hdrop : (u.bytes 0 ++ tail).drop 4 = u.name ++ 0 :: (u.passwd ++ 0 :: (words (offs (u.head.length + 8 * u.members.length + 8) u.members) ++
      List.replicate 8 0 ++ strs u.members ++ tail)) := by
    unfold Group.bytes Group.head
    simp only [List.append_assoc]
    rw [List.drop_left' (leBytes_length 4 _)]
    simp only [List.cons_append, List.nil_append, Nat.add_zero, List.map_id_fun', id_eq]
  have htake : (u.bytes 0 ++ tail).take 4 = leBytes 4 u.gid := by
    unfold Group.bytes Group.head
    simp only [List.append_assoc]
    rw [List.take_left' (leBytes_length 4 _)]
  have hadj : adjust a 4096 u.head.length (u.bytes 0 ++ tail) = u.bytes a ++ tail := by
    have hs : u.head.length + 8 * u.members.length + 8 + (strs u.members).length = u.size := by
      rw [strs_length, head_length, Group.size]; omega
    have := adjust_eq a u.head (strs u.members ++ tail) (offs (u.head.length + 8 * u.members.length + 8) u.members) [] 4096
      (by rw [offs_length]; exact h4) (by
        intro v hv
        have := offs_bound hv
        omega)
    unfold Group.bytes
    simp only [words, List.flatMap_nil, List.append_nil, List.length_nil, Nat.mul_zero, Nat.add_zero, List.map_id_fun', id_eq,
      List.append_assoc] at this ⊢
    exact this
  have hmem : 4 + u.name.length + 1 + u.passwd.length + 1 = u.head.length := by rw [head_length]; omega
  refine ⟨⟨a + 4, a + (4 + u.name.length + 1), u.gid, a + u.head.length⟩, ?_, ?_⟩
  · unfold splitGrp
    rw [hdrop, split_cons hn, split_cons hp]
    generalize hr : split 0 (words (offs (u.head.length + 8 * u.members.length + 8) u.members) ++ List.replicate 8 0 ++ strs u.members ++ tail) = r
    cases r with
    | nil => exact absurd hr (split_ne _ _)
    | cons w r =>
      simp only [positions]
      rw [htake, leValue_leBytes 4 _ (by omega), hmem, hadj]
      unfold toInt32
      rw [if_pos hg]
  · have hbuf : ∀ x : List UInt8, u.bytes a ++ x = leBytes 4 u.gid ++ u.name ++ 0 :: (u.passwd ++ 0 ::
        (words ((offs (u.head.length + 8 * u.members.length + 8) u.members).map (· + a)) ++ List.replicate 8 0 ++ strs u.members ++ x)) := by
      intro x
      unfold Group.bytes Group.head
      simp
    refine ⟨⟨by dsimp only; omega, leBytes 4 u.gid, _, hbuf tail, by rw [leBytes_length]; dsimp only; omega, hn⟩,
      ⟨by dsimp only; omega, leBytes 4 u.gid ++ u.name ++ [0], words ((offs (u.head.length + 8 * u.members.length + 8) u.members).map (· + a)) ++
        List.replicate 8 0 ++ strs u.members ++ tail, by rw [hbuf]; simp,
        by simp only [List.length_append, leBytes_length, List.length_cons, List.length_nil]; omega, hp⟩, rfl, ?_, ?_⟩
    · intro i m hi
      have hlen : (u.head ++ words ((offs (u.head.length + 8 * u.members.length + 8) u.members).map (· + a)) ++ List.replicate 8 0).length
          = u.head.length + 8 * u.members.length + 8 := by
        simp only [List.length_append, words_length, List.length_map, offs_length, List.length_replicate]
      obtain ⟨o, o1, o2⟩ := offs_str u.members hm
        (u.head ++ words ((offs (u.head.length + 8 * u.members.length + 8) u.members).map (· + a)) ++ List.replicate 8 0) tail i m hi
      rw [hlen] at o1
      have hob := offs_bound (List.mem_of_getElem? o1)
      have hs : u.head.length + 8 * u.members.length + 8 + (strs u.members).length = u.size := by
        rw [strs_length, head_length, Group.size]; omega
      refine ⟨o + a, ⟨by dsimp only; omega, by omega, ?_⟩, by omega, by omega, ?_⟩
      · generalize hO : offs (u.head.length + 8 * u.members.length + 8) u.members = O at *
        obtain ⟨hi1, hi2⟩ := List.getElem?_eq_some_iff.1 o1
        have hsplitO : O.map (· + a) = (O.take i).map (· + a) ++ (o + a) :: (O.drop (i + 1)).map (· + a) := by
          rw [← hi2, ← List.map_cons (f := (· + a)), ← List.map_append, ← List.drop_eq_getElem_cons hi1, List.take_append_drop]
        refine ⟨u.head ++ words ((O.take i).map (· + a)),
          words ((O.drop (i + 1)).map (· + a)) ++ List.replicate 8 0 ++ strs u.members ++ tail, ?_, ?_⟩
        · unfold Group.bytes
          rw [hO, hsplitO, words_append]
          simp [words]
        · simp only [List.length_append, words_length, List.length_map, List.length_take]
          omega
      · rw [Nat.add_sub_cancel]
        have : u.bytes a ++ tail = u.head ++ words ((offs (u.head.length + 8 * u.members.length + 8) u.members).map (· + a)) ++ List.replicate 8 0
            ++ strs u.members ++ tail := rfl
        rw [this]
        exact o2
    · refine ⟨by dsimp only; omega, by omega, u.head ++ words ((offs (u.head.length + 8 * u.members.length + 8) u.members).map (· + a)),
        strs u.members ++ tail, ?_, ?_⟩
      · unfold Group.bytes
        have : leBytes 8 0 = List.replicate 8 0 := by decide
        rw [this]
        simp
      · simp only [List.length_append, words_length, List.length_map, offs_length]
        omega

theorem gline_facts {redox : Bool} {valid : List UInt8 → Bool} {l : List UInt8} {u : Group} (h : GLine redox valid l u) :
    0x0A ∉ l ∧ l ≠ [] := by
  obtain ⟨gt, _, _, hl, hw, _⟩ := h
  constructor
  · rw [hl]
    intro h
    rcases mem_intercalate h with h | ⟨w, h1, h2⟩
    · cases redox <;> exact absurd h (by decide)
    · exact (hw w h1).2.2 h2
  · rw [hl]
    simp [Group.fields, List.intercalate]

/-- Reading a line. -/
theorem gline_read {redox : Bool} {valid : List UInt8 → Bool} (hv : ∀ l, valid (l ++ [0x0A]) = valid l) {l rest : List UInt8} {u : Group}
    (h : GLine redox valid l u) (hr : rest = [] ∨ ∃ t, rest = 0x0A :: t) :
    ∃ line, readLine (l ++ rest) = (line, rest.tail) ∧ line ≠ [] ∧ valid line = true ∧ strip line = l := by
  obtain ⟨hnl, hne⟩ := gline_facts h
  obtain ⟨_, _, _, _, _, _, hcr, hval⟩ := h
  rcases hr with rfl | ⟨t, rfl⟩
  · refine ⟨l, by rw [List.append_nil, readLine_end hnl]; rfl, hne, hval, ?_⟩
    unfold strip
    rw [if_neg fun h => hnl (List.mem_of_getLast? h)]
  · refine ⟨l ++ [0x0A], by rw [readLine_newline hnl]; rfl, by simp, by rw [hv]; exact hval, ?_⟩
    unfold strip
    simp only [List.getLast?_append, List.getLast?_singleton, Option.some_or, if_true, List.dropLast_concat]
    rw [if_neg hcr]

/-- The limits of a group's entry at the address `a`. -/
def Fits (a : Nat) (dest : Option (List UInt8)) (u : Group) : Prop :=
  u.members.length ≤ 4096 ∧ a + u.size < 2 ^ 64 ∧ ∀ d, dest = some d → u.size ≤ d.length

theorem parseGrp_line {redox : Bool} {valid : List UInt8 → Bool} {a : Nat} {l : List UInt8} {u : Group} (h : GLine redox valid l u)
    {dest : Option (List UInt8)} (hf : Fits a dest u) :
    ∃ o, parseGrp redox a l dest = (.ok o, dest.map fun _ => o.buf) ∧ GShows a o.buf o.ref u ∧
      ∀ d, dest = some d → o.buf.length = d.length ∧ ∀ n, u.size ≤ n → o.buf.drop n = d.drop n := by
  obtain ⟨h1, h2, h3, h4⟩ := grpBytes_line h
  obtain ⟨_, _, hg, _⟩ := h
  obtain ⟨f1, f2, f3⟩ := hf
  unfold parseGrp
  rw [h1]
  cases dest with
  | none =>
    obtain ⟨g, e1, e2⟩ := splitGrp_line (a := a) [] hg h2 h3 h4 f1 f2
    rw [List.append_nil] at e1
    dsimp only
    rw [e1]
    exact ⟨⟨_, g⟩, rfl, e2, by simp⟩
  | some d =>
    have hd := f3 d rfl
    dsimp only
    rw [bytes_length, if_neg (by omega)]
    obtain ⟨g, e1, e2⟩ := splitGrp_line (a := a) (d.drop u.size) hg h2 h3 h4 f1 f2
    rw [e1]
    refine ⟨⟨_, g⟩, rfl, e2, ?_⟩
    intro d' e
    cases e
    constructor
    · simp only [List.length_append, bytes_length, List.length_drop]; omega
    · intro n hn
      dsimp only
      rw [List.drop_append, bytes_length, List.drop_eq_nil_of_le (by rw [bytes_length]; exact hn), List.drop_drop, List.nil_append]
      congr 1; omega

/-! ### Looking up -/

/-- The lines describe the groups. -/
def GLines (redox : Bool) (valid : List UInt8 → Bool) : List (List UInt8) → List Group → Prop
  | [], [] => True
  | l :: ls, u :: us => GLine redox valid l u ∧ GLines redox valid ls us
  | _, _ => False

theorem searchGrp_line {redox : Bool} {valid : List UInt8 → Bool} (hv : ∀ l, valid (l ++ [0x0A]) = valid l) {a : Nat}
    {want : OwnedGrp → Bool} {l rest : List UInt8} {u : Group} (h : GLine redox valid l u) (hr : rest = [] ∨ ∃ t, rest = 0x0A :: t)
    {dest : Option (List UInt8)} (hf : Fits a dest u) :
    ∃ o, searchGrp redox valid a want (l ++ rest) dest =
        (if want o then (.found o, dest.map fun _ => o.buf) else searchGrp redox valid a want rest.tail (dest.map fun _ => o.buf)) ∧
      GShows a o.buf o.ref u ∧ ∀ d, dest = some d → o.buf.length = d.length ∧ ∀ n, u.size ≤ n → o.buf.drop n = d.drop n := by
  obtain ⟨line, e1, e2, e3, e4⟩ := gline_read hv h hr
  obtain ⟨o, p1, p2, p3⟩ := parseGrp_line h hf
  refine ⟨o, ?_, p2, p3⟩
  rw [searchGrp, e1]
  simp only [e2, dite_false, e3, Bool.true_eq_false, if_false, e4, p1]

theorem searchGrp_end (redox : Bool) (valid : List UInt8 → Bool) (a : Nat) (want : OwnedGrp → Bool) (dest : Option (List UInt8)) :
    searchGrp redox valid a want [] dest = (.absent, dest) := by
  rw [searchGrp]; rfl

theorem searchGrp_skip {redox : Bool} {valid : List UInt8 → Bool} (hv : ∀ l, valid (l ++ [0x0A]) = valid l) {a : Nat}
    {want : OwnedGrp → Bool} {wanted : Group → Prop}
    (hw : ∀ o u, GShows a o.buf o.ref u → (want o = true ↔ wanted u)) (rest : List UInt8) :
    ∀ (ls : List (List UInt8)) (us : List Group), GLines redox valid ls us → (∀ u ∈ us, ¬ wanted u) →
    ∀ (dest : Option (List UInt8)), (∀ u ∈ us, Fits a dest u) →
    ∃ dest', searchGrp redox valid a want (body ls ++ rest) dest = searchGrp redox valid a want rest dest' ∧
      (dest = none → dest' = none) ∧
      ∀ d, dest = some d → ∃ d', dest' = some d' ∧ d'.length = d.length ∧
        ∀ n, (∀ u ∈ us, u.size ≤ n) → d'.drop n = d.drop n := by
  intro ls
  induction ls with
  | nil =>
    intro us _ _ dest _
    exact ⟨dest, by simp [body], id, fun d h => ⟨d, h, rfl, fun _ _ => rfl⟩⟩
  | cons l ls ih =>
    intro us hl hn dest hf
    cases us with
    | nil => exact absurd hl (by simp [GLines])
    | cons u us =>
      obtain ⟨h1, h2⟩ := hl
      have hb : body (l :: ls) ++ rest = l ++ (0x0A :: (body ls ++ rest)) := by simp [body]
      obtain ⟨o, e1, e2, e3⟩ := searchGrp_line hv (want := want) h1 (.inr ⟨body ls ++ rest, rfl⟩) (hf u (by simp))
      have hno : want o = false := by
        have := mt (hw o u e2).1 (hn u (by simp))
        simpa using this
      obtain ⟨dest', g1, g2, g3⟩ := ih us h2 (fun v hv => hn v (List.mem_cons_of_mem _ hv)) (dest.map fun _ => o.buf) (by
        intro v hv
        obtain ⟨f1, f2, f3⟩ := hf v (List.mem_cons_of_mem _ hv)
        refine ⟨f1, f2, ?_⟩
        intro d hd'
        cases dest with
        | none => simp at hd'
        | some d0 =>
          simp at hd'
          have := f3 d0 rfl
          have := (e3 d0 rfl).1
          rw [← hd']; omega)
      refine ⟨dest', ?_, ?_, ?_⟩
      · rw [hb, e1]
        simp only [hno, Bool.false_eq_true, if_false, List.tail_cons]
        exact g1
      · intro h; subst h; exact g2 rfl
      · intro d h
        subst h
        obtain ⟨d', k1, k2, k3⟩ := g3 o.buf rfl
        obtain ⟨q1, q2⟩ := e3 d rfl
        refine ⟨d', k1, by omega, ?_⟩
        intro n hn
        rw [k3 n fun v hv => hn v (List.mem_cons_of_mem _ hv)]
        exact q2 n (hn u (by simp))

theorem searchGrp_found {redox : Bool} {valid : List UInt8 → Bool} (hv : ∀ l, valid (l ++ [0x0A]) = valid l) {a : Nat}
    {want : OwnedGrp → Bool} {wanted : Group → Prop}
    (hw : ∀ o u, GShows a o.buf o.ref u → (want o = true ↔ wanted u)) {ls : List (List UInt8)} {us : List Group}
    (hl : GLines redox valid ls us) (hn : ∀ u ∈ us, ¬ wanted u) {l rest : List UInt8} {u : Group} (hu : GLine redox valid l u)
    (hwu : wanted u) (hr : rest = [] ∨ ∃ t, rest = 0x0A :: t) (dest : Option (List UInt8)) (hf : ∀ v ∈ u :: us, Fits a dest v) :
    ∃ o, searchGrp redox valid a want (body ls ++ l ++ rest) dest = (.found o, dest.map fun _ => o.buf) ∧ GShows a o.buf o.ref u ∧
      ∀ d, dest = some d → o.buf.length = d.length ∧ ∀ n, (∀ v ∈ u :: us, v.size ≤ n) → o.buf.drop n = d.drop n := by
  obtain ⟨dest', g1, g2, g3⟩ := searchGrp_skip hv hw (l ++ rest) ls us hl hn dest fun v hv => hf v (List.mem_cons_of_mem _ hv)
  have hsame : dest'.isSome = dest.isSome ∧ Fits a dest' u := by
    obtain ⟨f1, f2, f3⟩ := hf u (by simp)
    cases dest with
    | none => rw [g2 rfl]; exact ⟨rfl, f1, f2, by simp⟩
    | some d =>
      obtain ⟨d', k1, k2, _⟩ := g3 d rfl
      subst k1
      refine ⟨rfl, f1, f2, ?_⟩
      intro d'' h
      cases h
      rw [k2]; exact f3 d rfl
  obtain ⟨o, e1, e2, e3⟩ := searchGrp_line hv (want := want) hu hr hsame.2
  refine ⟨o, ?_, e2, ?_⟩
  · rw [List.append_assoc, g1, e1, if_pos ((hw o u e2).2 hwu)]
    cases dest <;> cases dest' <;> simp_all
  · intro d h
    obtain ⟨d', k1, k2, k3⟩ := g3 d h
    obtain ⟨q1, q2⟩ := e3 d' k1
    refine ⟨by omega, ?_⟩
    intro n hn
    rw [← k3 n fun v hv => hn v (List.mem_cons_of_mem _ hv)]
    exact q2 n (hn u (by simp))

theorem searchGrp_absent {redox : Bool} {valid : List UInt8 → Bool} (hv : ∀ l, valid (l ++ [0x0A]) = valid l) {a : Nat}
    {want : OwnedGrp → Bool} {wanted : Group → Prop}
    (hw : ∀ o u, GShows a o.buf o.ref u → (want o = true ↔ wanted u)) {ls : List (List UInt8)} {us : List Group}
    (hl : GLines redox valid ls us) (hn : ∀ u ∈ us, ¬ wanted u) (dest : Option (List UInt8)) (hf : ∀ v ∈ us, Fits a dest v) :
    ∃ dest', searchGrp redox valid a want (body ls) dest = (.absent, dest') := by
  obtain ⟨dest', g1, _⟩ := searchGrp_skip hv hw [] ls us hl hn dest hf
  rw [List.append_nil] at g1
  exact ⟨dest', by rw [g1, searchGrp_end]⟩

theorem hasGid_iff {a : Nat} {gid : Int} {o : OwnedGrp} {u : Group} (h : GShows a o.buf o.ref u) :
    hasGid gid o = true ↔ (u.gid : Int) = gid := by
  unfold hasGid
  rw [h.2.2.1]
  simp

theorem likeName_iff {a : Nat} {name : List UInt8} {o : OwnedGrp} {u : Group} (h : GShows a o.buf o.ref u) :
    likeName a name o = true ↔ u.name <+: name ∨ name <+: u.name := by
  unfold likeName
  rw [str_cstr h.1.2]
  simp only [beq_iff_eq]
  constructor
  · intro he
    rcases Nat.le_total u.name.length name.length with hl | hl
    · left
      rw [Nat.min_eq_left hl, List.take_length] at he
      rw [he]; exact List.take_prefix _ _
    · right
      rw [Nat.min_eq_right hl, List.take_length] at he
      rw [← he]; exact List.take_prefix _ _
  · rintro (h | h)
    · rw [Nat.min_eq_left h.length_le, List.take_length]
      exact List.prefix_iff_eq_take.1 h
    · rw [Nat.min_eq_right h.length_le, List.take_length]
      exact (List.prefix_iff_eq_take.1 h).symm

/-- `getgrgid`: the first group with the id, whatever follows; NULL if there is none. Partial: the lines up to the group's must all
describe groups, with at most 4096 members. -/
theorem C88_getgrgid_partial (redox : Bool) (valid : List UInt8 → Bool) (hv : ∀ l, valid (l ++ [0x0A]) = valid l) (a : Nat) (gid : Int)
    (ls : List (List UInt8)) (us : List Group) (hl : GLines redox valid ls us) (hn : ∀ u ∈ us, (u.gid : Int) ≠ gid)
    (hf : ∀ u ∈ us, u.members.length ≤ 4096 ∧ a + u.size < 2 ^ 64) :
    (∀ l rest u, GLine redox valid l u → (u.gid : Int) = gid → (rest = [] ∨ ∃ t, rest = 0x0A :: t) →
      u.members.length ≤ 4096 → a + u.size < 2 ^ 64 →
      ∃ o, getgr redox valid a (hasGid gid) (body ls ++ l ++ rest) = some o ∧ GShows a o.buf o.ref u) ∧
    getgr redox valid a (hasGid gid) (body ls) = none := by
  have hf' : ∀ u ∈ us, Fits a none u := fun u h => ⟨(hf u h).1, (hf u h).2, by simp⟩
  constructor
  · intro l rest u hu hname hr h1 h2
    obtain ⟨o, e1, e2, _⟩ := searchGrp_found hv (fun o u h => hasGid_iff h) hl hn hu hname hr none (by
      intro v hv'
      rcases List.mem_cons.1 hv' with rfl | hv'
      · exact ⟨h1, h2, by simp⟩
      · exact hf' v hv')
    exact ⟨o, by unfold getgr; rw [e1], e2⟩
  · obtain ⟨d, h⟩ := searchGrp_absent hv (fun o u h => hasGid_iff (a := a) (gid := gid) h) hl hn none hf'
    unfold getgr; rw [h]

/-- `getgrnam`: the first group of the name. Partial, besides: no group before it has a name that begins with the name or that the
name begins with. -/
theorem C88_getgrnam_partial (redox : Bool) (valid : List UInt8 → Bool) (hv : ∀ l, valid (l ++ [0x0A]) = valid l) (a : Nat)
    (name : List UInt8) (ls : List (List UInt8)) (us : List Group) (hl : GLines redox valid ls us)
    (hn : ∀ u ∈ us, ¬ u.name <+: name ∧ ¬ name <+: u.name)
    (hf : ∀ u ∈ us, u.members.length ≤ 4096 ∧ a + u.size < 2 ^ 64) :
    (∀ l rest u, GLine redox valid l u → u.name = name → (rest = [] ∨ ∃ t, rest = 0x0A :: t) →
      u.members.length ≤ 4096 → a + u.size < 2 ^ 64 →
      ∃ o, getgr redox valid a (likeName a name) (body ls ++ l ++ rest) = some o ∧ GShows a o.buf o.ref u) ∧
    getgr redox valid a (likeName a name) (body ls) = none := by
  have hf' : ∀ u ∈ us, Fits a none u := fun u h => ⟨(hf u h).1, (hf u h).2, by simp⟩
  have hn' : ∀ u ∈ us, ¬ (u.name <+: name ∨ name <+: u.name) := fun u hu h => h.elim (hn u hu).1 (hn u hu).2
  constructor
  · intro l rest u hu hname hr h1 h2
    obtain ⟨o, e1, e2, _⟩ := searchGrp_found hv (fun o u h => likeName_iff (a := a) (name := name) h) hl hn' hu
      (.inl (by rw [hname]; exact List.prefix_refl _)) hr none (by
      intro v hv'
      rcases List.mem_cons.1 hv' with rfl | hv'
      · exact ⟨h1, h2, by simp⟩
      · exact hf' v hv')
    exact ⟨o, by unfold getgr; rw [e1], e2⟩
  · obtain ⟨d, h⟩ := searchGrp_absent hv (fun o u h => likeName_iff (a := a) (name := name) h) hl hn' none hf'
    unfold getgr; rw [h]

/-- `getgrgid_r` with a buffer that has room for each of the groups. -/
theorem C88_getgrgid_r_partial (redox : Bool) (valid : List UInt8 → Bool) (hv : ∀ l, valid (l ++ [0x0A]) = valid l) (a : Nat) (gid : Int)
    (ls : List (List UInt8)) (us : List Group) (hl : GLines redox valid ls us) (hn : ∀ u ∈ us, (u.gid : Int) ≠ gid)
    (buf : List UInt8) (ha : a + buf.length < 2 ^ 64) (hf : ∀ u ∈ us, u.members.length ≤ 4096 ∧ u.size ≤ buf.length) :
    (∀ l rest u, GLine redox valid l u → (u.gid : Int) = gid → (rest = [] ∨ ∃ t, rest = 0x0A :: t) →
      u.members.length ≤ 4096 → u.size ≤ buf.length →
      ∃ g buf', getgrgidR redox valid a gid (body ls ++ l ++ rest) buf = ⟨0, .entry g, buf'⟩ ∧ GShows a buf' g u ∧
        buf'.length = buf.length ∧ ∀ n, (∀ v ∈ u :: us, v.size ≤ n) → buf'.drop n = buf.drop n) ∧
    (getgrgidR redox valid a gid (body ls) buf).ret = 0 ∧ (getgrgidR redox valid a gid (body ls) buf).result = .null := by
  have hf' : ∀ u ∈ us, Fits a (some buf) u := fun u h => ⟨(hf u h).1, by have := (hf u h).2; omega, by
    intro d e; cases e; exact (hf u h).2⟩
  constructor
  · intro l rest u hu hname hr h1 h2
    obtain ⟨o, e1, e2, e3⟩ := searchGrp_found hv (fun o u h => hasGid_iff h) hl hn hu hname hr (some buf) (by
      intro v hv'
      rcases List.mem_cons.1 hv' with rfl | hv'
      · exact ⟨h1, Nat.lt_of_le_of_lt (Nat.add_le_add_left h2 a) ha, by intro d e; cases e; exact h2⟩
      · exact hf' v hv')
    obtain ⟨q1, q2⟩ := e3 buf rfl
    exact ⟨o.ref, o.buf, by unfold getgrgidR; rw [e1]; rfl, e2, q1, q2⟩
  · obtain ⟨d, h⟩ := searchGrp_absent hv (fun o u h => hasGid_iff (a := a) (gid := gid) h) hl hn (some buf) hf'
    unfold getgrgidR; rw [h]; exact ⟨rfl, rfl⟩

/-- `getgrnam_r` likewise; a group that is not there is left to `C88_getgrnam_r_violation`. -/
theorem C88_getgrnam_r_partial (redox : Bool) (valid : List UInt8 → Bool) (hv : ∀ l, valid (l ++ [0x0A]) = valid l) (a : Nat)
    (name : List UInt8) (ls : List (List UInt8)) (us : List Group) (hl : GLines redox valid ls us)
    (hn : ∀ u ∈ us, ¬ u.name <+: name ∧ ¬ name <+: u.name)
    (buf : List UInt8) (ha : a + buf.length < 2 ^ 64) (hf : ∀ u ∈ us, u.members.length ≤ 4096 ∧ u.size ≤ buf.length)
    (l rest : List UInt8) (u : Group) (hu : GLine redox valid l u) (hname : u.name = name) (hr : rest = [] ∨ ∃ t, rest = 0x0A :: t)
    (h1 : u.members.length ≤ 4096) (h2 : u.size ≤ buf.length) :
    ∃ g buf', getgrnamR redox valid a name (body ls ++ l ++ rest) buf = ⟨0, .entry g, buf'⟩ ∧ GShows a buf' g u ∧
      buf'.length = buf.length ∧ ∀ n, (∀ v ∈ u :: us, v.size ≤ n) → buf'.drop n = buf.drop n := by
  have hf' : ∀ u ∈ us, Fits a (some buf) u := fun u h => ⟨(hf u h).1, by have := (hf u h).2; omega, by
    intro d e; cases e; exact (hf u h).2⟩
  have hn' : ∀ u ∈ us, ¬ (u.name <+: name ∨ name <+: u.name) := fun u hu h => h.elim (hn u hu).1 (hn u hu).2
  obtain ⟨o, e1, e2, e3⟩ := searchGrp_found hv (fun o u h => likeName_iff (a := a) (name := name) h) hl hn' hu
    (.inl (by rw [hname]; exact List.prefix_refl _)) hr (some buf) (by
    intro v hv'
    rcases List.mem_cons.1 hv' with rfl | hv'
    · exact ⟨h1, Nat.lt_of_le_of_lt (Nat.add_le_add_left h2 a) ha, by intro d e; cases e; exact h2⟩
    · exact hf' v hv')
  obtain ⟨q1, q2⟩ := e3 buf rfl
  exact ⟨o.ref, o.buf, by unfold getgrnamR; rw [e1]; rfl, e2, q1, q2⟩

/-! ### Enumeration -/

/-- What the calls of `getgrent` return. -/
def grRun (redox : Bool) (valid : List UInt8 → Bool) (a : Nat) (file : List UInt8) : Option (List UInt8) → List PwOp → List (Option OwnedGrp)
  | _, [] => []
  | r, .next :: ops => (getgrent redox valid a file r).1 :: grRun redox valid a file (getgrent redox valid a file r).2 ops
  | r, .rewind :: ops => grRun redox valid a file (setgrent file r) ops
  | r, .close :: ops => grRun redox valid a file (endgrent r) ops

/-- What they should. -/
def grSpec (us : List Group) : Nat → List PwOp → List (Option Group)
  | _, [] => []
  | i, .next :: ops => us[i]? :: grSpec us (i + 1) ops
  | _, .rewind :: ops => grSpec us 0 ops
  | _, .close :: ops => grSpec us 0 ops

/-- The entries returned describe the groups. -/
def GAgree (a : Nat) : List (Option OwnedGrp) → List (Option Group) → Prop
  | [], [] => True
  | some o :: os, some u :: us => GShows a o.buf o.ref u ∧ GAgree a os us
  | none :: os, none :: us => GAgree a os us
  | _, _ => False

theorem glines_get {redox : Bool} {valid : List UInt8 → Bool} : ∀ {ls : List (List UInt8)} {us : List Group}, GLines redox valid ls us →
    ls.length = us.length ∧ ∀ (i : Nat) (l : List UInt8), ls[i]? = some l → ∃ u, us[i]? = some u ∧ GLine redox valid l u
  | [], [], _ => ⟨rfl, by simp⟩
  | l :: ls, u :: us, h => by
    obtain ⟨e1, e2⟩ := glines_get h.2
    refine ⟨by simp [e1], ?_⟩
    intro i l' hi
    cases i with
    | zero => simp at hi; subst hi; exact ⟨u, rfl, h.1⟩
    | succ i => simp at hi; obtain ⟨v, h1, h2⟩ := e2 i l' hi; exact ⟨v, by simpa using h1, h2⟩
  | [], _ :: _, h => absurd h (by simp [GLines])
  | _ :: _, [], h => absurd h (by simp [GLines])

/-- `getgrent` gives all groups in the order of the file, then NULL; `setgrent` and `endgrent` go back to the first. Partial: every
line must describe a group with at most 4096 members. -/
theorem C88_getgrent_partial (redox : Bool) (valid : List UInt8 → Bool) (hv : ∀ l, valid (l ++ [0x0A]) = valid l) (a : Nat)
    (ls : List (List UInt8)) (us : List Group) (hl : GLines redox valid ls us)
    (hf : ∀ u ∈ us, u.members.length ≤ 4096 ∧ a + u.size < 2 ^ 64) (ops : List PwOp) :
    GAgree a (grRun redox valid a (body ls) none ops) (grSpec us 0 ops) := by
  obtain ⟨hlen, hget⟩ := glines_get hl
  have key : ∀ (ops : List PwOp) (r : Option (List UInt8)) (i : Nat), r.getD (body ls) = body (ls.drop i) →
      GAgree a (grRun redox valid a (body ls) r ops) (grSpec us i ops) := by
    intro ops
    induction ops with
    | nil => intro _ _ _; trivial
    | cons op ops ih =>
      intro r i hr
      cases op with
      | rewind => exact ih _ 0 rfl
      | close => exact ih _ 0 rfl
      | next =>
        unfold grRun grSpec
        rcases Nat.lt_or_ge i ls.length with hi | hi
        · have hl1 : ls[i]? = some ls[i] := List.getElem?_eq_getElem hi
          obtain ⟨u, hu1, hu2⟩ := hget i _ hl1
          have hb : body (ls.drop i) = ls[i] ++ (0x0A :: body (ls.drop (i + 1))) := by
            rw [List.drop_eq_getElem_cons hi]; simp only [body, List.map_cons, List.flatten_cons, List.append_assoc, List.cons_append, List.nil_append]
          obtain ⟨line, e1, e2, e3, e4⟩ := gline_read hv hu2 (.inr ⟨body (ls.drop (i + 1)), rfl⟩)
          have hfu := hf u (List.mem_of_getElem? hu1)
          obtain ⟨o, p1, p2, _⟩ := parseGrp_line (a := a) (dest := none) hu2 ⟨hfu.1, hfu.2, by simp⟩
          have hg : getgrent redox valid a (body ls) r = (some o, some (body (ls.drop (i + 1)))) := by
            unfold getgrent
            dsimp only
            rw [hr, hb, e1]
            simp only [e2, if_false, e3, Bool.true_eq_false, e4, p1, List.tail_cons]
          rw [hg, hu1]
          exact ⟨p2, ih _ _ rfl⟩
        · have hb : body (ls.drop i) = [] := by rw [List.drop_eq_nil_of_le hi]; rfl
          have hg : getgrent redox valid a (body ls) r = (none, some []) := by
            unfold getgrent
            rw [hr, hb]
            rfl
          rw [hg, List.getElem?_eq_none (by omega)]
          refine ih _ _ ?_
          rw [List.drop_eq_nil_of_le (by omega)]
          rfl
  exact key ops none 0 rfl

/-! ### The groups of a user -/

theorem trim_plain {s : List UInt8} (h : ∀ b ∈ s, 0x20 < b ∧ b < 0x7F) : trim s = s := by
  have one : ∀ t : List UInt8, (∀ b ∈ t, 0x20 < b ∧ b < 0x7F) → t.dropWhile isSpace = t := by
    intro t ht
    cases t with
    | nil => rfl
    | cons b t =>
      obtain ⟨hb, hb2⟩ := ht b (by simp)
      have : isSpace b = false := by
        unfold isSpace
        rw [UInt8.lt_iff_toNat_lt] at hb
        have h1 : ¬ b = 0x20 := by rintro rfl; simp at hb
        have h2 : ¬ b ≤ 0x0D := by rw [UInt8.le_iff_toNat_le]; simp at hb ⊢; omega
        simp [h1, h2]
      rw [List.dropWhile_cons_of_neg (by simp [this])]
  unfold trim
  rw [one s h, one s.reverse (by simpa using h), List.reverse_reverse]

/-- The groups of the database that have the user as a member. -/
def memberOf (user : List UInt8) (us : List Group) : List Int := (us.filter fun u => u.members.contains user).map fun u => (u.gid : Int)

theorem groupLoop_lines {redox : Bool} {valid : List UInt8 → Bool} (hv : ∀ l, valid (l ++ [0x0A]) = valid l) {user : List UInt8}
    (hu : user ≠ []) :
    ∀ (ls : List (List UInt8)) (us : List Group), GLines redox valid ls us →
    (∀ u ∈ us, ∀ m ∈ u.members, ∀ b ∈ m, 0x20 < b ∧ b < 0x7F) →
    groupLoop redox valid user (body ls) = some (.ok (memberOf user us)) := by
  intro ls
  induction ls with
  | nil =>
    intro us hl _
    cases us with
    | nil => rw [groupLoop]; rfl
    | cons u us => exact absurd hl (by simp [GLines])
  | cons l ls ih =>
    intro us hl hp
    cases us with
    | nil => exact absurd hl (by simp [GLines])
    | cons u us =>
      obtain ⟨h1, h2⟩ := hl
      have hb : body (l :: ls) = l ++ (0x0A :: body ls) := by simp [body]
      obtain ⟨line, e1, e2, e3, e4⟩ := gline_read hv h1 (.inr ⟨body ls, rfl⟩)
      obtain ⟨gt, hg, hg2, hl', hw, hm, _, _⟩ := h1
      have hsplit : split (sep redox) l = u.fields gt := by
        rw [hl']
        exact split_intercalate (by simp [Group.fields]) fun w h => (hw w h).1
      rw [hb, groupLoop, e1]
      simp only [e2, dite_false, e3, Bool.true_eq_false, if_false, e4, hsplit, Group.fields, List.getElem?_cons_succ, List.getElem?_cons_zero,
        Option.getD_some, parseInt_of (bits := 32) hg hg2, List.tail_cons]
      rw [ih us h2 fun v hv => hp v (List.mem_cons_of_mem _ hv)]
      have hc : ((split 0x2C (List.intercalate [0x2C] u.members)).map trim).contains user = u.members.contains user := by
        cases hms : u.members with
        | nil =>
          simp only [List.intercalate, List.intersperse_nil, List.flatten_nil, split, List.map_cons, List.map_nil]
          have : trim [] = [] := rfl
          rw [this]
          cases user with
          | nil => exact absurd rfl hu
          | cons b t => rfl
        | cons m ms =>
          rw [← hms, split_intercalate (by simp [hms]) fun w hw => (hm w hw).2]
          have : u.members.map trim = u.members := by
            conv => rhs; rw [← List.map_id u.members]
            exact List.map_congr_left fun m hm => trim_plain (hp u (by simp) m hm)
          rw [this]
      simp only [hc]
      unfold memberOf
      rw [List.filter_cons]
      split <;> simp

/-- `getgrouplist` gives the groups of the database the user is a member of, as many as there is room for; their number; and the
number or, if there is not enough room, -1. Partial: the group given as an argument is not among them (`C88_getgrouplist_violation`);
every line must describe a group, and the members' names are of graphic ASCII characters. -/
theorem C88_getgrouplist_partial (redox : Bool) (valid : List UInt8 → Bool) (hv : ∀ l, valid (l ++ [0x0A]) = valid l)
    (ls : List (List UInt8)) (us : List Group) (hl : GLines redox valid ls us)
    (hp : ∀ u ∈ us, ∀ m ∈ u.members, ∀ b ∈ m, 0x20 < b ∧ b < 0x7F) (user : List UInt8) (hu : user ≠ []) (huv : valid user = true)
    (gid : Int) (groups : List Int) :
    ∃ r, getgrouplist redox valid (body ls) user gid groups = some r ∧ r.n = (memberOf user us).length ∧
      r.ret = (if (memberOf user us).length ≤ groups.length then ((memberOf user us).length : Int) else -1) ∧
      r.groups.length = groups.length ∧ ∀ (i : Nat), i < groups.length → r.groups[i]? = (memberOf user us ++ groups.drop (memberOf user us).length)[i]? := by
  unfold getgrouplist
  rw [if_neg (by simp [huv]), groupLoop_lines hv hu ls us hl hp]
  refine ⟨_, rfl, rfl, ?_, ?_, ?_⟩
  · dsimp only
    split <;> split <;> first | rfl | omega
  · simp only [List.length_append, List.length_take, List.length_drop]; omega
  · intro i hi
    dsimp only
    rw [List.getElem?_append, List.getElem?_append, List.length_take, List.getElem?_take]
    split
    · rw [if_pos (by omega)]
    · rw [if_neg (by omega)]
      congr 1; omega

end Verif.Users
