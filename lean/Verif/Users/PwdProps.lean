import Verif.Users.PwdModel
import Verif.Net.InetProps
/-!
# C87: users are found in the user database

A line of the file describes a user: name, password, user id, group id, full name, home directory, shell (on Redox without the
password, which is "x"). `getpwnam` and `getpwuid` give the first user with the name or the id.
-/

namespace Verif.Users

open Verif.Net

/-- A user. -/
structure User where
  name : List UInt8
  passwd : List UInt8
  uid : Nat
  gid : Nat
  gecos : List UInt8
  dir : List UInt8
  shell : List UInt8
deriving DecidableEq

/-- The fields of the line of a user; `ut` and `gt` are the two ids in decimal. -/
def User.fields (redox : Bool) (u : User) (ut gt : List UInt8) : List (List UInt8) :=
  if redox then [u.name, ut, gt, u.gecos, u.dir, u.shell] else [u.name, u.passwd, ut, gt, u.gecos, u.dir, u.shell]

/-- The line `l` describes the user `u`. Ids are below 2^31: `uid_t` and `gid_t` are `int`. -/
def Line (redox : Bool) (l : List UInt8) (u : User) : Prop :=
  ∃ ut gt, Numeral 10 ut u.uid ∧ u.uid < 2 ^ 31 ∧ Numeral 10 gt u.gid ∧ u.gid < 2 ^ 31 ∧
    l = List.intercalate [if redox then 0x3B else 0x3A] (u.fields redox ut gt) ∧
    (∀ w ∈ u.fields redox ut gt, (if redox then 0x3B else 0x3A) ∉ w ∧ 0 ∉ w ∧ 0x0A ∉ w) ∧
    (redox = true → u.passwd = [0x78])

/-- There is a NUL-terminated string at the offset. -/
def Str (buf : List UInt8) (off : Nat) (s : List UInt8) : Prop :=
  ∃ pre post, buf = pre ++ s ++ 0 :: post ∧ pre.length = off ∧ 0 ∉ s

/-- The structure describes the user. -/
def Shows (buf : List UInt8) (p : Passwd) (u : User) : Prop :=
  Str buf p.name u.name ∧ (match p.passwd with | some o => Str buf o u.passwd | none => u.passwd = [0x78]) ∧
    p.uid = (u.uid : Int) ∧ p.gid = (u.gid : Int) ∧ Str buf p.gecos u.gecos ∧ Str buf p.dir u.dir ∧ Str buf p.shell u.shell

/-! ### Lines -/

theorem parseInt_of {bits : Nat} {s : List UInt8} {v : Nat} (h : Numeral 10 s v) (hv : v < 2 ^ (bits - 1)) :
    parseInt bits s = some (v : Int) := by
  have hf := fromStr_of (bits := bits - 1) (by decide) (by decide) h hv
  have hm : (0x2D : UInt8) ∉ s := h.not_mem (by decide)
  have hp : (0x2B : UInt8) ∉ s := h.not_mem (by decide)
  match s, h, hf, hm, hp with
  | [], h, _, _, _ => exact absurd rfl h.ne
  | [b], _, hf, hm, hp =>
    simp only [List.mem_cons, List.not_mem_nil, or_false] at hm hp
    rw [fromStrRadix, if_neg (by rintro (h | h) <;> simp_all)] at hf
    rw [parseInt, if_neg (by rintro (h | h) <;> simp_all), hf]
    rfl
  | b :: c :: t, _, hf, hm, hp =>
    simp only [List.mem_cons, not_or] at hm hp
    rw [fromStrRadix, if_neg (Ne.symm hp.1)] at hf
    · rw [parseInt, if_neg (Ne.symm hp.1), if_neg (Ne.symm hm.1), hf]
      · rfl
      · simp
    · simp

theorem readLine_newline {l : List UInt8} (h : 0x0A ∉ l) (t : List UInt8) : readLine (l ++ 0x0A :: t) = (l ++ [0x0A], t) := by
  induction l with
  | nil => simp [readLine]
  | cons b l ih =>
    simp only [List.mem_cons, not_or] at h
    simp only [List.cons_append, readLine, if_neg (Ne.symm h.1), ih h.2]

theorem readLine_end {l : List UInt8} (h : 0x0A ∉ l) : readLine l = (l, []) := by
  induction l with
  | nil => rfl
  | cons b l ih =>
    simp only [List.mem_cons, not_or] at h
    simp only [readLine, if_neg (Ne.symm h.1), ih h.2]

theorem positions_length (off : Nat) (ws : List (List UInt8)) : (positions off ws).length = ws.length := by
  induction ws generalizing off with
  | nil => rfl
  | cons w ws ih => simp [positions, ih]

/-- Every part but the last is followed by a NUL byte. -/
theorem positions_str (ws : List (List UInt8)) (hz : ∀ w ∈ ws, 0 ∉ w) (tail : List UInt8) :
    ∀ (before : List UInt8) (i off : Nat) (w : List UInt8), (positions before.length ws)[i]? = some (off, w) →
    ws ≠ [] → Str (before ++ List.intercalate [0] ws ++ 0 :: tail) off w := by
  induction ws with
  | nil => intro _ _ _ _ _ h; exact absurd rfl h
  | cons x ws ih =>
    intro before i off w h _
    cases ws with
    | nil =>
      cases i with
      | zero =>
        simp [positions] at h
        obtain ⟨rfl, rfl⟩ := h
        exact ⟨before, tail, by simp [List.intercalate], rfl, hz _ (by simp)⟩
      | succ i => simp [positions] at h
    | cons y ws =>
      have hj : List.intercalate [0] (x :: y :: ws) = x ++ 0 :: List.intercalate [0] (y :: ws) := by simp [List.intercalate]
      rw [hj]
      cases i with
      | zero =>
        simp [positions] at h
        obtain ⟨rfl, rfl⟩ := h
        exact ⟨before, List.intercalate [0] (y :: ws) ++ 0 :: tail, by simp, rfl, hz _ (by simp)⟩
      | succ i =>
        have h2 : (positions (before ++ x ++ [0]).length (y :: ws))[i]? = some (off, w) := by
          rw [positions, List.getElem?_cons_succ] at h
          have hlen : (before ++ x ++ [0]).length = before.length + x.length + 1 := by simp only [List.length_append, List.length_cons, List.length_nil]
          rw [hlen]
          exact h
        have := ih (fun w hw => hz w (List.mem_cons_of_mem _ hw)) (before ++ x ++ [0]) i off w h2 (by simp)
        simpa using this

theorem split_join (ws : List (List UInt8)) (hz : ∀ w ∈ ws, 0 ∉ w) (hne : ws ≠ []) (tail : List UInt8) :
    split 0 (List.intercalate [0] ws ++ 0 :: tail) = ws ++ split 0 tail := by
  induction ws with
  | nil => exact absurd rfl hne
  | cons w ws ih =>
    cases ws with
    | nil => simp only [List.intercalate, List.intersperse_singleton, List.flatten_cons, List.flatten_nil, List.append_nil]
             rw [split_cons (hz w (by simp))]; rfl
    | cons y ws =>
      have hj : List.intercalate [0] (w :: y :: ws) = w ++ 0 :: List.intercalate [0] (y :: ws) := by simp [List.intercalate]
      rw [hj, List.append_assoc, List.cons_append, split_cons (hz w (by simp)),
        ih (fun v hv => hz v (List.mem_cons_of_mem _ hv)) (by simp)]
      rfl

theorem positions_append (off : Nat) (ws vs : List (List UInt8)) :
    ∃ off', positions off (ws ++ vs) = positions off ws ++ positions off' vs := by
  induction ws generalizing off with
  | nil => exact ⟨off, rfl⟩
  | cons w ws ih =>
    obtain ⟨o, h⟩ := ih (off + w.length + 1)
    exact ⟨o, by simp [positions, h]⟩

theorem map_sep (s : UInt8) (ws : List (List UInt8)) (h : ∀ w ∈ ws, s ∉ w) :
    (List.intercalate [s] ws).map (fun b => if b = s then 0 else b) = List.intercalate [0] ws := by
  have one : ∀ w : List UInt8, s ∉ w → w.map (fun b => if b = s then 0 else b) = w := by
    intro w hw
    induction w with
    | nil => rfl
    | cons b w ih =>
      simp only [List.mem_cons, not_or] at hw
      rw [List.map_cons, ih hw.2, if_neg (Ne.symm hw.1)]
  induction ws with
  | nil => rfl
  | cons w ws ih =>
    cases ws with
    | nil => simp [List.intercalate, one w (h w (by simp))]
    | cons y ws =>
      have hj : ∀ c : UInt8, List.intercalate [c] (w :: y :: ws) = w ++ c :: List.intercalate [c] (y :: ws) := by
        intro c; simp [List.intercalate]
      rw [hj, hj, List.map_append, one w (h w (by simp)), List.map_cons, ih (fun v hv => h v (List.mem_cons_of_mem _ hv))]
      simp

/-- The buffer made of a user's line. -/
theorem record_line {redox : Bool} {l : List UInt8} {u : User} {ut gt : List UInt8}
    (hl : l = List.intercalate [if redox then 0x3B else 0x3A] (u.fields redox ut gt))
    (hw : ∀ w ∈ u.fields redox ut gt, (if redox then 0x3B else 0x3A) ∉ w ∧ 0 ∉ w ∧ 0x0A ∉ w) :
    record redox (l ++ [0x0A]) = List.intercalate [0] (u.fields redox ut gt) ++ [0] ∧
    record redox l = List.intercalate [0] (u.fields redox ut gt) ++ [0] := by
  have hsep : sep redox = if redox then 0x3B else 0x3A := rfl
  have hnl : (0x0A : UInt8) ∉ List.intercalate [0] (u.fields redox ut gt) := by
    intro h
    rcases mem_intercalate h with h | ⟨w, h1, h2⟩
    · exact absurd h (by decide)
    · exact (hw w h1).2.2 h2
  have hm : l.map (fun b => if b = sep redox then 0 else b) = List.intercalate [0] (u.fields redox ut gt) := by
    rw [hl, hsep]
    exact map_sep _ _ fun w h => (hw w h).1
  have hns : (0x0A : UInt8) ≠ sep redox := by cases redox <;> decide
  constructor
  · unfold record
    simp only [List.map_append, hm, List.map_cons, List.map_nil, if_neg hns]
    rw [if_pos (by simp), List.dropLast_concat]
  · unfold record
    simp only [hm]
    rw [if_neg]
    intro h
    exact hnl (List.mem_of_getLast? h)

/-- The entry found in a buffer that begins with the record of a user. -/
theorem splitEntry_line {redox : Bool} {u : User} {ut gt tail : List UInt8} (hu : Numeral 10 ut u.uid) (hu2 : u.uid < 2 ^ 31)
    (hg : Numeral 10 gt u.gid) (hg2 : u.gid < 2 ^ 31) (hx : redox = true → u.passwd = [0x78])
    (hw : ∀ w ∈ u.fields redox ut gt, 0 ∉ w) :
    ∃ p, splitEntry redox (List.intercalate [0] (u.fields redox ut gt) ++ 0 :: tail) = some p ∧
      Shows (List.intercalate [0] (u.fields redox ut gt) ++ 0 :: tail) p u := by
  have hne : u.fields redox ut gt ≠ [] := by unfold User.fields; split <;> simp
  have hpos : ∀ (i off : Nat) (w : List UInt8), (positions 0 (u.fields redox ut gt))[i]? = some (off, w) →
      Str (List.intercalate [0] (u.fields redox ut gt) ++ 0 :: tail) off w := by
    intro i off w h
    have := positions_str (u.fields redox ut gt) hw tail [] i off w h hne
    simpa using this
  have hsplit := split_join (u.fields redox ut gt) hw hne tail
  obtain ⟨o, happ⟩ := positions_append 0 (u.fields redox ut gt) (split 0 tail)
  have h1 := parseInt_of (bits := 32) hu hu2
  have h2 := parseInt_of (bits := 32) hg hg2
  generalize hbuf : List.intercalate [0] (u.fields redox ut gt) ++ 0 :: tail = buf at *
  unfold splitEntry
  rw [hsplit, happ]
  cases redox with
  | false =>
    simp only [User.fields, Bool.false_eq_true, if_false, positions, List.cons_append, h1, h2, Option.bind_eq_bind, Option.bind_some] at hpos ⊢
    exact ⟨_, rfl, hpos 0 _ _ rfl, hpos 1 _ _ rfl, rfl, rfl, hpos 4 _ _ rfl, hpos 5 _ _ rfl, hpos 6 _ _ rfl⟩
  | true =>
    simp only [User.fields, if_true, positions, List.cons_append, h1, h2, Option.bind_eq_bind, Option.bind_some] at hpos ⊢
    exact ⟨_, rfl, hpos 0 _ _ rfl, hx rfl, rfl, rfl, hpos 3 _ _ rfl, hpos 4 _ _ rfl, hpos 5 _ _ rfl⟩

theorem line_facts {redox : Bool} {l : List UInt8} {u : User} (h : Line redox l u) : 0x0A ∉ l ∧ l ≠ [] := by
  obtain ⟨ut, gt, hu, _, _, _, hl, hw, _⟩ := h
  constructor
  · rw [hl]
    intro h
    rcases mem_intercalate h with h | ⟨w, h1, h2⟩
    · cases redox <;> exact absurd h (by decide)
    · exact (hw w h1).2.2 h2
  · rw [hl]
    unfold User.fields
    cases redox <;> simp [List.intercalate]

/-- Reading the line of a user. -/
theorem getpwentR_line {redox : Bool} {l rest : List UInt8} {u : User} (h : Line redox l u) (hr : rest = [] ∨ ∃ t, rest = 0x0A :: t)
    (dest : Option (List UInt8)) (hd : ∀ d, dest = some d → l.length + 1 ≤ d.length) :
    ∃ o, getpwentR redox (l ++ rest) dest = (.ok o, rest.tail, dest.map fun _ => o.buf) ∧ Shows o.buf o.ref u ∧
      ∀ d, dest = some d → o.buf.length = d.length ∧ o.buf.drop (l.length + 1) = d.drop (l.length + 1) := by
  obtain ⟨hnl, hne⟩ := line_facts h
  obtain ⟨ut, gt, hu, hu2, hg, hg2, hl, hw, hx⟩ := h
  obtain ⟨r1, r2⟩ := record_line hl hw
  have hline : ∃ line, readLine (l ++ rest) = (line, rest.tail) ∧ line ≠ [] ∧
      record redox line = List.intercalate [0] (u.fields redox ut gt) ++ [0] := by
    rcases hr with rfl | ⟨t, rfl⟩
    · exact ⟨l, by rw [List.append_nil, readLine_end hnl]; rfl, hne, r2⟩
    · exact ⟨l ++ [0x0A], by rw [readLine_newline hnl]; rfl, by simp, r1⟩
  obtain ⟨line, e1, e2, e3⟩ := hline
  have hlen : (List.intercalate [0] (u.fields redox ut gt)).length = l.length := by
    have := congrArg List.length (map_sep (if redox then 0x3B else 0x3A) (u.fields redox ut gt) fun w h => (hw w h).1)
    rw [List.length_map, ← hl] at this
    exact this.symm
  unfold getpwentR
  rw [e1]
  simp only [if_neg e2, e3]
  cases dest with
  | none =>
    obtain ⟨p, p1, p2⟩ := splitEntry_line (redox := redox) (tail := []) hu hu2 hg hg2 hx fun w h => (hw w h).2.1
    rw [p1]
    exact ⟨⟨_, p⟩, rfl, p2, by simp⟩
  | some d =>
    have hdl := hd d rfl
    simp only [List.length_append, hlen, List.length_cons, List.length_nil, Nat.zero_add]
    rw [if_neg (by omega)]
    obtain ⟨p, p1, p2⟩ := splitEntry_line (redox := redox) (tail := d.drop (l.length + 1)) hu hu2 hg hg2 hx fun w h => (hw w h).2.1
    simp only [List.append_assoc, List.cons_append, List.nil_append]
    rw [p1]
    refine ⟨⟨_, p⟩, rfl, p2, ?_⟩
    intro d' e
    cases e
    constructor
    · simp only [List.length_append, hlen, List.length_cons, List.length_drop]; omega
    · dsimp only
      rw [show l.length + 1 = (List.intercalate [0] (u.fields redox ut gt)).length + 1 by omega, List.drop_append]
      simp

theorem getpwentR_end (redox : Bool) (dest : Option (List UInt8)) : getpwentR redox [] dest = (.error .eof, [], dest) := rfl

/-! ### Looking up -/

/-- The beginning of a file: the lines of the users, each with its newline. -/
def body (ls : List (List UInt8)) : List UInt8 := (ls.map (· ++ [0x0A])).flatten

/-- The lines describe the users. -/
def Lines (redox : Bool) : List (List UInt8) → List User → Prop
  | [], [] => True
  | l :: ls, u :: us => Line redox l u ∧ Lines redox ls us
  | _, _ => False

theorem lookup_eq (redox : Bool) (want : Owned → Bool) (file : List UInt8) (dest : Option (List UInt8)) :
    lookup redox want file dest = match getpwentR redox file dest with
      | (.error c, _, dest) => (.error c, dest)
      | (.ok o, rest, dest) => if want o then (.ok o, dest) else lookup redox want rest dest := by
  rw [lookup]
  split <;> rename_i h <;> rw [h]

/-- The search goes past the users not wanted. -/
theorem lookup_skip {redox : Bool} {want : Owned → Bool} {wanted : User → Prop}
    (hw : ∀ o u, Shows o.buf o.ref u → (want o = true ↔ wanted u)) (rest : List UInt8) :
    ∀ (ls : List (List UInt8)) (us : List User), Lines redox ls us → (∀ u ∈ us, ¬ wanted u) →
    ∀ (dest : Option (List UInt8)), (∀ d, dest = some d → ∀ l ∈ ls, l.length + 1 ≤ d.length) →
    ∃ dest', lookup redox want (body ls ++ rest) dest = lookup redox want rest dest' ∧
      (dest = none → dest' = none) ∧
      ∀ d, dest = some d → ∃ d', dest' = some d' ∧ d'.length = d.length ∧
        ∀ n, (∀ l ∈ ls, l.length + 1 ≤ n) → d'.drop n = d.drop n := by
  intro ls
  induction ls with
  | nil =>
    intro us _ _ dest _
    exact ⟨dest, by simp [body], id, fun d h => ⟨d, h, rfl, fun _ _ => rfl⟩⟩
  | cons l ls ih =>
    intro us hl hn dest hd
    cases us with
    | nil => exact absurd hl (by simp [Lines])
    | cons u us =>
      obtain ⟨h1, h2⟩ := hl
      have hb : body (l :: ls) ++ rest = l ++ (0x0A :: (body ls ++ rest)) := by simp [body]
      obtain ⟨o, e1, e2, e3⟩ := getpwentR_line h1 (.inr ⟨body ls ++ rest, rfl⟩) dest fun d h => hd d h l (by simp)
      have hno : want o = false := by
        have := mt (hw o u e2).1 (hn u (by simp))
        simpa using this
      obtain ⟨dest', g1, g2, g3⟩ := ih us h2 (fun v hv => hn v (List.mem_cons_of_mem _ hv)) (dest.map fun _ => o.buf) (by
        intro d hd' l' hl'
        cases dest with
        | none => simp at hd'
        | some d0 =>
          simp at hd'
          have := hd d0 rfl l' (List.mem_cons_of_mem _ hl')
          have := (e3 d0 rfl).1
          rw [← hd']; omega)
      refine ⟨dest', ?_, ?_, ?_⟩
      · rw [hb, lookup_eq, e1]
        simp only [hno, Bool.false_eq_true, if_false, List.tail_cons]
        exact g1
      · intro h; subst h; exact g2 rfl
      · intro d h
        subst h
        obtain ⟨d', k1, k2, k3⟩ := g3 o.buf rfl
        obtain ⟨q1, q2⟩ := e3 d rfl
        refine ⟨d', k1, by omega, ?_⟩
        intro n hn
        rw [k3 n fun l' hl' => hn l' (List.mem_cons_of_mem _ hl')]
        have hln := hn l (by simp)
        have := congrArg (List.drop (n - (l.length + 1))) q2
        rw [List.drop_drop, List.drop_drop] at this
        rwa [show l.length + 1 + (n - (l.length + 1)) = n by omega] at this

theorem str_cstr {buf : List UInt8} {off : Nat} {s : List UInt8} (h : Str buf off s) : cstr buf off = s := by
  obtain ⟨pre, post, rfl, rfl, h⟩ := h
  unfold cstr
  rw [List.append_assoc, List.drop_left]
  rw [List.takeWhile_append_of_pos (by
    intro b hb
    have : b ≠ 0 := fun h0 => h (h0 ▸ hb)
    simpa using this)]
  simp

theorem named_iff {name : List UInt8} {o : Owned} {u : User} (h : Shows o.buf o.ref u) : named name o = true ↔ u.name = name := by
  unfold named
  rw [str_cstr h.1]
  simp

theorem hasUid_iff {uid : Int} {o : Owned} {u : User} (h : Shows o.buf o.ref u) : hasUid uid o = true ↔ (u.uid : Int) = uid := by
  unfold hasUid
  rw [h.2.2.1]
  simp

theorem lookup_found {redox : Bool} {want : Owned → Bool} {wanted : User → Prop}
    (hw : ∀ o u, Shows o.buf o.ref u → (want o = true ↔ wanted u)) {ls : List (List UInt8)} {us : List User} (hl : Lines redox ls us)
    (hn : ∀ u ∈ us, ¬ wanted u) {l rest : List UInt8} {u : User} (hu : Line redox l u) (hwu : wanted u)
    (hr : rest = [] ∨ ∃ t, rest = 0x0A :: t) (dest : Option (List UInt8))
    (hd : ∀ d, dest = some d → ∀ k ∈ l :: ls, k.length + 1 ≤ d.length) :
    ∃ o, lookup redox want (body ls ++ l ++ rest) dest = (.ok o, dest.map fun _ => o.buf) ∧ Shows o.buf o.ref u ∧
      ∀ d, dest = some d → o.buf.length = d.length ∧ ∀ n, (∀ k ∈ l :: ls, k.length + 1 ≤ n) → o.buf.drop n = d.drop n := by
  obtain ⟨dest', g1, g2, g3⟩ := lookup_skip hw (l ++ rest) ls us hl hn dest fun d h k hk => hd d h k (List.mem_cons_of_mem _ hk)
  have hsame : dest'.isSome = dest.isSome ∧ ∀ d', dest' = some d' → l.length + 1 ≤ d'.length := by
    cases dest with
    | none => rw [g2 rfl]; simp
    | some d =>
      obtain ⟨d', k1, k2, _⟩ := g3 d rfl
      subst k1
      refine ⟨rfl, ?_⟩
      intro d'' h
      cases h
      rw [k2]; exact hd d rfl l (by simp)
  obtain ⟨o, e1, e2, e3⟩ := getpwentR_line hu hr dest' hsame.2
  refine ⟨o, ?_, e2, ?_⟩
  · rw [List.append_assoc, g1, lookup_eq, e1]
    simp only [(hw o u e2).2 hwu, if_true]
    cases dest <;> cases dest' <;> simp_all
  · intro d h
    obtain ⟨d', k1, k2, k3⟩ := g3 d h
    obtain ⟨q1, q2⟩ := e3 d' k1
    refine ⟨by omega, ?_⟩
    intro n hn
    rw [← k3 n fun k hk => hn k (List.mem_cons_of_mem _ hk)]
    have hln := hn l (by simp)
    have := congrArg (List.drop (n - (l.length + 1))) q2
    rw [List.drop_drop, List.drop_drop] at this
    rwa [show l.length + 1 + (n - (l.length + 1)) = n by omega] at this

theorem lookup_absent {redox : Bool} {want : Owned → Bool} {wanted : User → Prop}
    (hw : ∀ o u, Shows o.buf o.ref u → (want o = true ↔ wanted u)) {ls : List (List UInt8)} {us : List User} (hl : Lines redox ls us)
    (hn : ∀ u ∈ us, ¬ wanted u) (dest : Option (List UInt8)) (hd : ∀ d, dest = some d → ∀ k ∈ ls, k.length + 1 ≤ d.length) :
    ∃ dest', lookup redox want (body ls) dest = (.error .eof, dest') := by
  obtain ⟨dest', g1, _⟩ := lookup_skip hw [] ls us hl hn dest hd
  rw [List.append_nil] at g1
  exact ⟨dest', by rw [g1, lookup_eq, getpwentR_end]⟩

/-- `getpwnam`: the first user of the name, whatever follows; NULL if there is none. Partial: the lines up to the user's must all
describe users. -/
theorem C87_getpwnam_partial (redox : Bool) (name : List UInt8) (ls : List (List UInt8)) (us : List User) (hl : Lines redox ls us)
    (hn : ∀ u ∈ us, u.name ≠ name) :
    (∀ l rest u, Line redox l u → u.name = name → (rest = [] ∨ ∃ t, rest = 0x0A :: t) →
      ∃ o, getpw redox (named name) (body ls ++ l ++ rest) = some o ∧ Shows o.buf o.ref u) ∧
    getpw redox (named name) (body ls) = none := by
  constructor
  · intro l rest u hu hname hr
    obtain ⟨o, e1, e2, _⟩ := lookup_found (fun o u h => named_iff h) hl hn hu hname hr none (by simp)
    exact ⟨o, by unfold getpw; rw [e1], e2⟩
  · obtain ⟨d, h⟩ := lookup_absent (fun o u h => named_iff (name := name) h) hl hn none (by simp)
    unfold getpw; rw [h]

/-- `getpwuid` likewise. -/
theorem C87_getpwuid_partial (redox : Bool) (uid : Int) (ls : List (List UInt8)) (us : List User) (hl : Lines redox ls us)
    (hn : ∀ u ∈ us, (u.uid : Int) ≠ uid) :
    (∀ l rest u, Line redox l u → (u.uid : Int) = uid → (rest = [] ∨ ∃ t, rest = 0x0A :: t) →
      ∃ o, getpw redox (hasUid uid) (body ls ++ l ++ rest) = some o ∧ Shows o.buf o.ref u) ∧
    getpw redox (hasUid uid) (body ls) = none := by
  constructor
  · intro l rest u hu hname hr
    obtain ⟨o, e1, e2, _⟩ := lookup_found (fun o u h => hasUid_iff h) hl hn hu hname hr none (by simp)
    exact ⟨o, by unfold getpw; rw [e1], e2⟩
  · obtain ⟨d, h⟩ := lookup_absent (fun o u h => hasUid_iff (uid := uid) h) hl hn none (by simp)
    unfold getpw; rw [h]

/-- `getpwnam_r` with a buffer that has room for each of the lines: the strings are in the buffer, the bytes of the buffer behind
the longest line stay as they were. -/
theorem C87_getpwnam_r_partial (redox : Bool) (name : List UInt8) (ls : List (List UInt8)) (us : List User) (hl : Lines redox ls us)
    (hn : ∀ u ∈ us, u.name ≠ name) (buf : List UInt8) (hb : ∀ k ∈ ls, k.length + 1 ≤ buf.length) :
    (∀ l rest u, Line redox l u → u.name = name → (rest = [] ∨ ∃ t, rest = 0x0A :: t) → l.length + 1 ≤ buf.length →
      ∃ p buf', getpwR redox (named name) (body ls ++ l ++ rest) buf = ⟨0, none, some p, buf'⟩ ∧ Shows buf' p u ∧
        buf'.length = buf.length ∧ ∀ n, (∀ k ∈ l :: ls, k.length + 1 ≤ n) → buf'.drop n = buf.drop n) ∧
    (getpwR redox (named name) (body ls) buf).ret = 0 ∧ (getpwR redox (named name) (body ls) buf).entry = none := by
  constructor
  · intro l rest u hu hname hr hlen
    obtain ⟨o, e1, e2, e3⟩ := lookup_found (fun o u h => named_iff h) hl hn hu hname hr (some buf) (by
      intro d h; cases h; intro k hk
      rcases List.mem_cons.1 hk with rfl | hk
      · exact hlen
      · exact hb k hk)
    obtain ⟨q1, q2⟩ := e3 buf rfl
    exact ⟨o.ref, o.buf, by unfold getpwR; rw [e1]; rfl, e2, q1, q2⟩
  · obtain ⟨d, h⟩ := lookup_absent (fun o u h => named_iff (name := name) h) hl hn (some buf) (by
      intro d h; cases h; exact hb)
    unfold getpwR; rw [h]; exact ⟨rfl, rfl⟩

/-- `getpwuid_r` likewise. -/
theorem C87_getpwuid_r_partial (redox : Bool) (uid : Int) (ls : List (List UInt8)) (us : List User) (hl : Lines redox ls us)
    (hn : ∀ u ∈ us, (u.uid : Int) ≠ uid) (buf : List UInt8) (hb : ∀ k ∈ ls, k.length + 1 ≤ buf.length) :
    (∀ l rest u, Line redox l u → (u.uid : Int) = uid → (rest = [] ∨ ∃ t, rest = 0x0A :: t) → l.length + 1 ≤ buf.length →
      ∃ p buf', getpwR redox (hasUid uid) (body ls ++ l ++ rest) buf = ⟨0, none, some p, buf'⟩ ∧ Shows buf' p u ∧
        buf'.length = buf.length ∧ ∀ n, (∀ k ∈ l :: ls, k.length + 1 ≤ n) → buf'.drop n = buf.drop n) ∧
    (getpwR redox (hasUid uid) (body ls) buf).ret = 0 ∧ (getpwR redox (hasUid uid) (body ls) buf).entry = none := by
  constructor
  · intro l rest u hu hname hr hlen
    obtain ⟨o, e1, e2, e3⟩ := lookup_found (fun o u h => hasUid_iff h) hl hn hu hname hr (some buf) (by
      intro d h; cases h; intro k hk
      rcases List.mem_cons.1 hk with rfl | hk
      · exact hlen
      · exact hb k hk)
    obtain ⟨q1, q2⟩ := e3 buf rfl
    exact ⟨o.ref, o.buf, by unfold getpwR; rw [e1]; rfl, e2, q1, q2⟩
  · obtain ⟨d, h⟩ := lookup_absent (fun o u h => hasUid_iff (uid := uid) h) hl hn (some buf) (by
      intro d h; cases h; exact hb)
    unfold getpwR; rw [h]; exact ⟨rfl, rfl⟩

/-- Whatever the file and the buffer hold, the reentrant functions do not write beyond the buffer. -/
theorem C87_bounds (redox : Bool) (want : Owned → Bool) (file buf : List UInt8) :
    (getpwR redox want file buf).buf.length = buf.length := by
  have key : ∀ n (file : List UInt8) (d : List UInt8), file.length < n → ∃ d', (lookup redox want file (some d)).2 = some d' ∧
      d'.length = d.length := by
    intro n
    induction n with
    | zero => intro _ _ h; omega
    | succ n ih =>
      intro file d hn
      rw [lookup_eq]
      have hstep : ∃ r rest d', getpwentR redox file (some d) = (r, rest, some d') ∧ d'.length = d.length := by
        unfold getpwentR
        dsimp only
        split
        · exact ⟨_, _, _, rfl, rfl⟩
        · split
          · exact ⟨_, _, _, rfl, rfl⟩
          · rename_i h
            have : (record redox (readLine file).fst ++ d.drop (record redox (readLine file).fst).length).length = d.length := by
              simp only [List.length_append, List.length_drop]; omega
            split
            · exact ⟨_, _, _, rfl, this⟩
            · exact ⟨_, _, _, rfl, this⟩
      obtain ⟨r, rest, d', h1, h2⟩ := hstep
      rw [h1]
      cases r with
      | error c => exact ⟨d', rfl, h2⟩
      | ok o =>
        dsimp only
        split
        · exact ⟨d', rfl, h2⟩
        · have := getpwentR_length h1
          obtain ⟨d2, k1, k2⟩ := ih rest d' (by omega)
          exact ⟨d2, k1, by omega⟩
  obtain ⟨d', h1, h2⟩ := key (file.length + 1) file buf (by omega)
  unfold getpwR
  split <;> rename_i h <;> rw [h] at h1 <;> simp only at h1 <;> subst h1 <;> simpa using h2

/-! ### Enumeration -/

/-- Calls that walk through the users. -/
inductive PwOp where
  | next
  | rewind
  | close
deriving DecidableEq

/-- What the calls of `getpwent` return. -/
def pwRun (redox : Bool) (file : List UInt8) : Option (List UInt8) → List PwOp → List (Option Owned)
  | _, [] => []
  | r, .next :: ops => (getpwent redox file r).1 :: pwRun redox file (getpwent redox file r).2 ops
  | r, .rewind :: ops => pwRun redox file (setpwent file r) ops
  | r, .close :: ops => pwRun redox file (endpwent r) ops

/-- What they should: the users one after the other, NULL at the end. -/
def pwSpec (us : List User) : Nat → List PwOp → List (Option User)
  | _, [] => []
  | i, .next :: ops => us[i]? :: pwSpec us (i + 1) ops
  | _, .rewind :: ops => pwSpec us 0 ops
  | _, .close :: ops => pwSpec us 0 ops

/-- The entries returned describe the users. -/
def Agree : List (Option Owned) → List (Option User) → Prop
  | [], [] => True
  | some o :: os, some u :: us => Shows o.buf o.ref u ∧ Agree os us
  | none :: os, none :: us => Agree os us
  | _, _ => False

theorem lines_get {redox : Bool} : ∀ {ls : List (List UInt8)} {us : List User}, Lines redox ls us → ls.length = us.length ∧
    ∀ (i : Nat) (l : List UInt8), ls[i]? = some l → ∃ u, us[i]? = some u ∧ Line redox l u
  | [], [], _ => ⟨rfl, by simp⟩
  | l :: ls, u :: us, h => by
    obtain ⟨e1, e2⟩ := lines_get h.2
    refine ⟨by simp [e1], ?_⟩
    intro i l' hi
    cases i with
    | zero => simp at hi; subst hi; exact ⟨u, rfl, h.1⟩
    | succ i => simp at hi; obtain ⟨v, h1, h2⟩ := e2 i l' hi; exact ⟨v, by simpa using h1, h2⟩
  | [], _ :: _, h => absurd h (by simp [Lines])
  | _ :: _, [], h => absurd h (by simp [Lines])

/-- `getpwent` gives all users in the order of the file, then NULL; `setpwent` and `endpwent` go back to the first. Partial: every
line must describe a user. -/
theorem C87_getpwent_partial (redox : Bool) (ls : List (List UInt8)) (us : List User) (hl : Lines redox ls us) (ops : List PwOp) :
    Agree (pwRun redox (body ls) none ops) (pwSpec us 0 ops) := by
  obtain ⟨hlen, hget⟩ := lines_get hl
  have key : ∀ (ops : List PwOp) (r : Option (List UInt8)) (i : Nat), r.getD (body ls) = body (ls.drop i) →
      Agree (pwRun redox (body ls) r ops) (pwSpec us i ops) := by
    intro ops
    induction ops with
    | nil => intro _ _ _; trivial
    | cons op ops ih =>
      intro r i hr
      cases op with
      | rewind =>
        refine ih _ 0 ?_
        cases r <;> rfl
      | close => exact ih _ 0 rfl
      | next =>
        unfold pwRun pwSpec
        rcases Nat.lt_or_ge i ls.length with hi | hi
        · have hl1 : ls[i]? = some ls[i] := List.getElem?_eq_getElem hi
          obtain ⟨u, hu1, hu2⟩ := hget i _ hl1
          have hb : body (ls.drop i) = ls[i] ++ (0x0A :: body (ls.drop (i + 1))) := by
            rw [List.drop_eq_getElem_cons hi]; simp only [body, List.map_cons, List.flatten_cons, List.append_assoc, List.cons_append, List.nil_append]
          obtain ⟨o, e1, e2, _⟩ := getpwentR_line hu2 (.inr ⟨body (ls.drop (i + 1)), rfl⟩) none (by simp)
          have hg : getpwent redox (body ls) r = (some o, some (body (ls.drop (i + 1)))) := by
            unfold getpwent
            rw [hr, hb, e1]
            rfl
          rw [hg, hu1]
          exact ⟨e2, ih _ _ rfl⟩
        · have hb : body (ls.drop i) = [] := by rw [List.drop_eq_nil_of_le hi]; rfl
          have hg : getpwent redox (body ls) r = (none, some []) := by
            unfold getpwent
            rw [hr, hb, getpwentR_end]
          rw [hg, List.getElem?_eq_none (by omega)]
          refine ih _ _ ?_
          rw [List.drop_eq_nil_of_le (by omega)]
          rfl
  exact key ops none 0 rfl

end Verif.Users
