import Verif.Lookup.AddrInfoModel
import Verif.Lookup.Props
import Verif.Time.FormatLemmas

/-!
# C126: `getaddrinfo` and `getnameinfo`
-/

namespace Verif.Lookup
open Verif.Net Verif.Dns

/-! ## Specification -/

/-- The flags: `AI_PASSIVE`, `AI_CANONNAME`, `AI_NUMERICHOST`; `NI_NUMERICHOST`, `NI_NUMERICSERV`, `NI_NAMEREQD`. -/
def Flag (flags : UInt32) (v : Nat) : Prop := flags.toNat / v % 2 = 1

/-- A service: none, or a port in decimal. -/
def Service (service : Option (List UInt8)) (port : Nat) : Prop := match service with
  | none => port = 0
  | some s => Numeral 10 s port ∧ port < 65536

/-- An entry for an address and a port: IPv4, with the type of socket asked for, the port in network order. -/
def entry (socktype : Int) (port : Nat) (canon : Option (List UInt8)) (addr : List UInt8) : Info :=
  { flags := 0, family := 2, socktype, protocol := 0, addrlen := 16, canonname := canon, addr := { family := 2, port := [UInt8.ofNat (port / 256), UInt8.ofNat (port % 256)], addr } }

/-- The entries for a list of addresses; the first may have the canonical name. -/
def entries (socktype : Int) (port : Nat) (canon : Option (List UInt8)) : List (List UInt8) → List Info
  | [] => []
  | a :: as => entry socktype port canon a :: as.map (entry socktype port none)

/-! ## Lemmas -/

theorem has_iff (flags : UInt32) (k : Nat) : has flags k = true ↔ Flag flags (2 ^ k) := by
  unfold has Flag
  rw [Nat.testBit_eq_decide_div_mod_eq, decide_eq_true_eq]

theorem infoLoop_plain (node : Option (List UInt8)) (t : List UInt8) (st : Int) (p : Nat) : ∀ (as : List (List UInt8)) (l : List Info) (n : Nat),
    infoLoop node t st p false as l n = (0, l ++ as.map (entry st p none), n + 2 * as.length) := by
  intro as
  induction as with
  | nil => intro l n; simp [infoLoop]
  | cons a as ih =>
    intro l n
    rw [infoLoop]
    simp only [Bool.false_and, Bool.false_eq_true, if_false]
    rw [ih]
    simp [entry, portBytes]
    omega

theorem infoLoop_canon (s t : List UInt8) (st : Int) (p : Nat) (as : List (List UInt8)) :
    infoLoop (some s) t st p true as [] 0 = (0, entries st p (some t) as, if as = [] then 0 else 2 * as.length + 1) := by
  cases as with
  | nil => rfl
  | cons a as =>
    rw [infoLoop]
    simp only [Option.isNone_some, Bool.and_false, Bool.false_eq_true, if_false, if_true]
    rw [infoLoop_plain]
    simp [entries, entry, portBytes]
    omega

theorem entries_none (st : Int) (p : Nat) (as : List (List UInt8)) : entries st p none as = as.map (entry st p none) := by
  cases as <;> rfl

/-- The port. -/
theorem service_port {service : Option (List UInt8)} {port : Nat} (h : Service service port) :
    servicePort service = port := by
  cases service with
  | none => exact h.symm
  | some s =>
    obtain ⟨h1, h2⟩ := h
    show (fromStrRadix 16 10 s).getD 0 = port
    rw [fromStr_of (by decide) (by decide) h1 h2]
    rfl

/-- All of `getaddrinfo` once the addresses are known. -/
theorem gai_found (w : World) (s : List UInt8) (service : Option (List UInt8)) (port : Nat) (hs : Service service port) (hints : Option Hints) (as : List (List UInt8))
    (sent : List (List UInt8 × List UInt8)) (leaves : List Nat) (hf : lookupHost w s = ⟨.ok as, sent, leaves⟩) (hn : ¬ Flag ((hints.map (·.flags)).getD 0) 4) :
    ∃ boxes, getaddrinfo w (some s) service hints
      = ⟨.code 0, none, entries ((hints.map (·.socktype)).getD 0) port (if has ((hints.map (·.flags)).getD 0) 1 then some s else none) as, boxes, sent, leaves⟩ := by
  have hb : has ((hints.map (·.flags)).getD 0) 2 = false := by
    rw [Bool.eq_false_iff]
    exact fun h => hn ((has_iff _ 2).1 h)
  unfold getaddrinfo
  dsimp only
  rw [hb, service_port hs]
  simp only [Option.getD_some, Bool.false_eq_true, if_false, hf]
  cases has ((hints.map (·.flags)).getD 0) 1 with
  | false => rw [infoLoop_plain, ← entries_none]; exact ⟨_, rfl⟩
  | true => rw [infoLoop_canon]; exact ⟨_, rfl⟩

/-! ## C126 -/

/-- C126: **an address in decimal dotted notation and a port number** give exactly one entry, with that address and port in network order; the canonical name, if asked for, is the text; nothing is sent. With
or without `AI_NUMERICHOST`. -/
theorem C126_numeric (w : World) (s : List UInt8) (a b c d : UInt8) (h : Quad s a.toNat b.toNat c.toNat d.toNat) (service : Option (List UInt8)) (port : Nat) (hs : Service service port)
    (hints : Option Hints) (canon : Option (List UInt8)) (hc : Flag ((hints.map (·.flags)).getD 0) 2 ∧ canon = some s ∨ ¬ Flag ((hints.map (·.flags)).getD 0) 2 ∧ canon = none) :
    let o := getaddrinfo w (some s) service hints
    o.ret = .code 0 ∧ o.list = [entry ((hints.map (·.socktype)).getD 0) port canon [a, b, c, d]] ∧ o.sent = [] ∧ o.leaves = [] := by
  dsimp only
  have hcan : (if has ((hints.map (·.flags)).getD 0) 1 then some s else none) = canon := by
    rcases hc with ⟨h, rfl⟩ | ⟨h, rfl⟩
    · exact if_pos ((has_iff _ 1).2 h)
    · exact if_neg (fun h' => h ((has_iff _ 1).1 h'))
  by_cases hn : Flag ((hints.map (·.flags)).getD 0) 4
  · unfold getaddrinfo
    dsimp only
    rw [(has_iff _ 2).2 hn, service_port hs]
    simp only [Option.getD_some, if_true, parse_quad h]
    rw [← hcan]
    cases has ((hints.map (·.flags)).getD 0) 1 with
    | false => rw [infoLoop_plain]; exact ⟨rfl, rfl, trivial, trivial⟩
    | true => rw [infoLoop_canon]; exact ⟨rfl, rfl, trivial, trivial⟩
  · obtain ⟨bx, he⟩ := gai_found w s service port hs hints [[a, b, c, d]] [] [] (C125_quad w s a b c d h) hn
    rw [he, hcan]
    exact ⟨rfl, rfl, rfl, rfl⟩

/-- `getaddrinfo("10.0.2.15", "80", hints of type 1)`. -/
example : (getaddrinfo ⟨.error 2, 0, none, true, true, .lost⟩ (some [0x31, 0x30, 0x2E, 0x30, 0x2E, 0x32, 0x2E, 0x31, 0x35]) (some [0x38, 0x30]) (some ⟨0, 0, 1, 0⟩)).list
    = [⟨0, 2, 1, 0, 16, none, ⟨2, [0, 80], [10, 0, 2, 15]⟩⟩] := by decide +kernel

/-- C126: **no host**: the wildcard address with `AI_PASSIVE`, else that of the loopback interface. -/
theorem C126_nohost (w : World) (service : Option (List UInt8)) (port : Nat) (hs : Service service port) (hints : Option Hints) (hc : ¬ Flag ((hints.map (·.flags)).getD 0) 2) :
    let o := getaddrinfo w none service hints
    o.ret = .code 0 ∧ o.sent = [] ∧ (Flag ((hints.map (·.flags)).getD 0) 1 → o.list = [entry ((hints.map (·.socktype)).getD 0) port none [0, 0, 0, 0]])
      ∧ (¬ Flag ((hints.map (·.flags)).getD 0) 1 → o.list = [entry ((hints.map (·.socktype)).getD 0) port none [127, 0, 0, 1]]) := by
  have hb : has ((hints.map (·.flags)).getD 0) 1 = false := by
    rw [Bool.eq_false_iff]
    exact fun h => hc ((has_iff _ 1).1 h)
  have e1 : parseIpv4 anyText = some [0, 0, 0, 0] := by decide +kernel
  have e2 : parseIpv4 loopText = some [127, 0, 0, 1] := by decide +kernel
  have i0 := has_iff ((hints.map (·.flags)).getD 0) 0
  unfold getaddrinfo
  dsimp only
  rw [service_port hs]
  simp only [hb, Option.getD_none, lookupHost]
  cases h0 : has ((hints.map (·.flags)).getD 0) 0 <;> cases has ((hints.map (·.flags)).getD 0) 2
  all_goals simp only [Bool.false_eq_true, if_false, if_true, e1, e2, infoLoop_plain]
  all_goals rw [h0] at i0
  · exact ⟨trivial, trivial, fun h => absurd (i0.2 h) (by decide), fun _ => rfl⟩
  · exact ⟨trivial, trivial, fun h => absurd (i0.2 h) (by decide), fun _ => rfl⟩
  · exact ⟨trivial, trivial, fun _ => rfl, fun h => absurd (i0.1 rfl) h⟩
  · exact ⟨trivial, trivial, fun _ => rfl, fun h => absurd (i0.1 rfl) h⟩

/-- C126, part: **a host name** gives one entry for every address in the answer of the name server, in their order. Missing: an answer without addresses is no error, families and protocols in the hints are
ignored, and what is missing from C125. -/
theorem C126_host_partial (w : World) (host : List UInt8) (ls : List (List UInt8)) (a b c d : UInt8) (fd : Nat) (data : List UInt8) (r : Dns) (hh : HostName host ls) (hn : ls.length ≠ 4)
    (hw : Works w a b c d fd data) (hr : Message data r) (service : Option (List UInt8)) (port : Nat) (hs : Service service port) (hints : Option Hints) (h4 : ¬ Flag ((hints.map (·.flags)).getD 0) 4)
    (canon : Option (List UInt8)) (hc : Flag ((hints.map (·.flags)).getD 0) 2 ∧ canon = some host ∨ ¬ Flag ((hints.map (·.flags)).getD 0) 2 ∧ canon = none) :
    let o := getaddrinfo w (some host) service hints
    o.ret = .code 0 ∧ o.list = entries ((hints.map (·.socktype)).getD 0) port canon (addresses r) := by
  have hcan : (if has ((hints.map (·.flags)).getD 0) 1 then some host else none) = canon := by
    rcases hc with ⟨h, rfl⟩ | ⟨h, rfl⟩
    · exact if_pos ((has_iff _ 1).2 h)
    · exact if_neg (fun h' => h ((has_iff _ 1).1 h'))
  obtain ⟨q, _, h1, _⟩ := C125_host_partial w host ls a b c d fd data r hh hn hw hr
  obtain ⟨bx, he⟩ := gai_found w host service port hs hints (addresses r) (lookupHost w host).sent (lookupHost w host).leaves
    (by rw [← h1]) h4
  dsimp only
  rw [he, hcan]
  exact ⟨rfl, rfl⟩

/-- C126: **`AI_NUMERICHOST`**: no question is ever sent, no socket opened; a name that has not four labels is `EAI_NONAME`. -/
theorem C126_numerichost (w : World) (host : List UInt8) (service : Option (List UInt8)) (hints : Option Hints) (h4 : Flag ((hints.map (·.flags)).getD 0) 4) :
    (getaddrinfo w (some host) service hints).sent = [] ∧ (getaddrinfo w (some host) service hints).leaves = []
    ∧ ∀ ls, HostName host ls → ls.length ≠ 4 → (getaddrinfo w (some host) service hints).ret = .code (-2) ∧ (getaddrinfo w (some host) service hints).list = [] := by
  have hb := (has_iff ((hints.map (·.flags)).getD 0) 2).2 h4
  unfold getaddrinfo
  dsimp only
  simp only [hb, if_true, Option.getD_some]
  refine ⟨?_, ?_, fun ls hh hn => ?_⟩
  · cases parseIpv4 host <;> rfl
  · cases parseIpv4 host <;> rfl
  · rw [parse_host hh hn]
    exact ⟨rfl, rfl⟩

/-- C126: **a lookup that fails** is `EAI_SYSTEM` with the error in `errno`, and there is no list. -/
theorem C126_system (w : World) (host : List UInt8) (service : Option (List UInt8)) (hints : Option Hints) (h4 : ¬ Flag ((hints.map (·.flags)).getD 0) 4) (e : Err) (he : (lookupHost w host).res = .err e) :
    let o := getaddrinfo w (some host) service hints
    o.ret = .code (-11) ∧ o.errno = some e ∧ o.list = [] := by
  have hb : has ((hints.map (·.flags)).getD 0) 2 = false := by
    rw [Bool.eq_false_iff]
    exact fun h => h4 ((has_iff _ 2).1 h)
  unfold getaddrinfo
  dsimp only
  simp only [hb, Bool.false_eq_true, if_false, Option.getD_some, he]
  exact ⟨trivial, trivial, trivial⟩

theorem free_map (st : Int) (p : Nat) (as : List (List UInt8)) : freeaddrinfo (as.map (entry st p none)) = 2 * as.length := by
  induction as with
  | nil => rfl
  | cons a as ih => simp only [List.map_cons, freeaddrinfo, ih, entry, List.length_cons]; simp; omega

/-- C126: **`freeaddrinfo` frees all** that a successful `getaddrinfo` allocated. -/
theorem C126_free (w : World) (node service : Option (List UInt8)) (hints : Option Hints) (h : (getaddrinfo w node service hints).ret = .code 0) :
    freeaddrinfo (getaddrinfo w node service hints).list = (getaddrinfo w node service hints).boxes := by
  revert h
  unfold getaddrinfo
  dsimp only
  generalize (if has ((hints.map (·.flags)).getD 0) 2 = true then _ else _ : Out (List (List UInt8))) = found
  generalize (servicePort service) = port
  cases found.res with
  | panic => intro h; cases h
  | hangs => intro h; cases h
  | err e =>
    dsimp only
    split <;> intro h <;> cases h
  | ok as =>
    dsimp only
    cases has ((hints.map (·.flags)).getD 0) 1 with
    | false =>
      rw [infoLoop_plain]
      intro _
      show freeaddrinfo ([] ++ as.map _) = 0 + 2 * as.length
      rw [List.nil_append, free_map]
      omega
    | true =>
      cases node with
      | some s =>
        rw [infoLoop_canon]
        intro _
        cases as with
        | nil => rfl
        | cons a as =>
          show freeaddrinfo (_ :: as.map _) = _
          rw [freeaddrinfo, free_map]
          simp [entry]
          omega
      | none =>
        cases as with
        | nil => intro _; rfl
        | cons a as =>
          intro h
          simp [infoLoop] at h

/-! ### `getnameinfo` -/

theorem ipText_quad (a b c d : UInt8) : ipText [a, b, c, d] = quadText a b c d := by
  have hdec : ∀ b : UInt8, dec b = Stdio.numeral 10 false b.toNat := fun b => Stdio.digitsOf_eq (by decide) (by decide) false b.toNat
  unfold ipText quadText
  simp only [hdec]

/-- C126: **the numeric form**: with `NI_NUMERICHOST` and `NI_NUMERICSERV` and buffers that hold them, the buffers get the decimal dotted address and the decimal port, each with a NUL, and nothing is sent. -/
theorem C126_numeric_name (w : World) (fam : Int) (p q a b c d : UInt8) (host serv : Nat) (flags : UInt32) (h1 : Flag flags 1) (h2 : Flag flags 2)
    (hh : (quadText a b c d).length < host) (hs : (Stdio.numeral 10 false (p.toNat * 256 + q.toNat)).length < serv) :
    getnameinfo w (some ⟨fam, [p, q], [a, b, c, d]⟩) 16 (some host) (some serv) flags
      = ⟨.code 0, some (quadText a b c d ++ [0]), some (Stdio.numeral 10 false (p.toNat * 256 + q.toNat) ++ [0]), [], []⟩ := by
  obtain ⟨m, rfl⟩ : ∃ m, host = m + 1 := ⟨host - 1, by omega⟩
  obtain ⟨n, rfl⟩ : ∃ n, serv = n + 1 := ⟨serv - 1, by omega⟩
  have i1 := (has_iff flags 0).2 h1
  have i2 := (has_iff flags 1).2 h2
  have e : portText [p, q] = Stdio.numeral 10 false (p.toNat * 256 + q.toNat) := Stdio.digitsOf_eq (by decide) (by decide) false _
  simp only [getnameinfo, nameRest, nameHost, put, i1, i2, e, ipText_quad, ne_eq, not_true_eq_false, if_false, if_true]
  rw [if_neg (by omega)]
  dsimp only
  rw [if_neg (by omega)]

/-- C126: **there and back**: the numeric name of what `getaddrinfo` makes of an address and a port is that address and port. -/
theorem C126_roundtrip (w : World) (a b c d : UInt8) (port : Nat) (hp : port < 65536) :
    ∃ i, (getaddrinfo w (some (quadText a b c d)) (some (Stdio.numeral 10 false port)) none).list = [i]
      ∧ getnameinfo w (some i.addr) i.addrlen (some 1025) (some 32) 3 = ⟨.code 0, some (quadText a b c d ++ [0]), some (Stdio.numeral 10 false port ++ [0]), [], []⟩ := by
  have hq := quadText_quad a b c d
  have hn : Service (some (Stdio.numeral 10 false port)) port := ⟨by
    rw [← Stdio.digitsOf_eq (by decide) (by decide) false port]
    exact digits_numeral port, hp⟩
  have h := (C126_numeric w (quadText a b c d) a b c d hq _ port hn none none (.inr ⟨by unfold Flag; decide, rfl⟩)).2.1
  refine ⟨_, h, ?_⟩
  have e : (UInt8.ofNat (port / 256)).toNat * 256 + (UInt8.ofNat (port % 256)).toNat = port := by
    rw [UInt8.toNat_ofNat', UInt8.toNat_ofNat']
    omega
  have key : ∀ n, n < 256 → (Stdio.digitsOf 10 false n).length ≤ 3 := by decide +kernel
  have l8 : ∀ x : UInt8, (dec x).length ≤ 3 := fun x => key x.toNat x.toNat_lt
  have lq : (quadText a b c d).length < 1025 := by
    rw [← ipText_quad]
    simp only [ipText, List.length_append, List.length_cons, List.length_nil]
    have := l8 a; have := l8 b; have := l8 c; have := l8 d
    omega
  have := C126_numeric_name w 2 (UInt8.ofNat (port / 256)) (UInt8.ofNat (port % 256)) a b c d 1025 32 3 (by unfold Flag; decide) (by unfold Flag; decide) lq (by
    rw [e, ← Stdio.digitsOf_eq (by decide) (by decide) false port]
    exact Nat.lt_of_le_of_lt (Time.digits_length (k := 4) (Nat.lt_of_lt_of_le hp (by decide))) (by decide))
  rw [e] at this
  exact this

/-- C126: **no buffer is overrun**, whatever the server answers: what is written to a buffer fits into it. -/
theorem C126_bounds (w : World) (addr : Option SockAddr) (addrlen : Nat) (host serv : Option Nat) (flags : UInt32) (bytes : List UInt8) :
    ((getnameinfo w addr addrlen host serv flags).host = some bytes → ∃ n, host = some n ∧ bytes.length ≤ n)
    ∧ ((getnameinfo w addr addrlen host serv flags).serv = some bytes → ∃ n, serv = some n ∧ bytes.length ≤ n) := by
  have hput : ∀ {cap s b}, put cap s = some b → b.length ≤ cap := by
    intro cap s b h
    unfold put at h
    split at h
    · cases h
    · injection h with h
      rw [← h]
      simp
      omega
  have hhost : ∀ addr n sv, (nameHost w addr n flags sv).serv = sv ∧ ∀ b, (nameHost w addr n flags sv).host = some b → b.length ≤ n := by
    intro addr n sv
    unfold nameHost
    dsimp only
    repeat' split
    all_goals refine ⟨rfl, fun b hb => ?_⟩
    all_goals first
      | cases hb; done
      | (injection hb with hb; subst hb; exact hput (by assumption))
  have hrest : ∀ addr sv, (nameRest w addr host flags sv).serv = sv ∧ ∀ b, (nameRest w addr host flags sv).host = some b → ∃ n, host = some n ∧ b.length ≤ n := by
    intro addr sv
    unfold nameRest
    split
    · exact ⟨(hhost _ _ _).1, fun b hb => ⟨_, rfl, (hhost _ _ _).2 b hb⟩⟩
    · exact ⟨rfl, fun b hb => by cases hb⟩
  unfold getnameinfo
  repeat' split
  all_goals first
    | exact ⟨fun h => (by cases h), fun h => (by cases h)⟩
    | refine ⟨fun h => (hrest _ _).2 _ h, fun h => ?_⟩
  · rw [(hrest _ _).1] at h
    injection h with h
    exact ⟨_, rfl, h ▸ hput (by assumption)⟩
  · rw [(hrest _ _).1] at h
    injection h with h
    exact ⟨_, rfl, by rw [← h]; simp⟩
  · rw [(hrest _ _).1] at h
    cases h

/-- C126, part: **the name of a host**: without `NI_NUMERICHOST`, the buffer gets the first name of the answer if it has room for it and two more bytes. -/
theorem C126_name_partial (w : World) (fam : Int) (p x y z t : UInt8) (q : UInt8) (host : Nat) (flags : UInt32) (h1 : ¬ Flag flags 1) (n : List UInt8) (ns : List (List UInt8))
    (hl : (lookupAddr w x y z t).res = .ok ((n ++ [0]) :: ns)) (hr : n.length + 2 ≤ host) :
    let o := getnameinfo w (some ⟨fam, [p, q], [x, y, z, t]⟩) 16 (some host) none flags
    o.ret = .code 0 ∧ ∃ rest, o.host = some (n ++ 0 :: rest) := by
  obtain ⟨m, rfl⟩ : ∃ m, host = m + 1 := ⟨host - 1, by omega⟩
  have i1 : has flags 0 = false := by
    rw [Bool.eq_false_iff]
    exact fun h => h1 ((has_iff _ 0).1 h)
  simp only [getnameinfo, nameRest, nameHost, i1, hl, ne_eq, not_true_eq_false, if_false, Bool.false_eq_true, put]
  rw [if_neg (by simp; omega)]
  exact ⟨rfl, [0], by simp⟩

/-- C126: **`NI_NAMEREQD`**: if no name is found, or the lookup fails, the result is `EAI_NONAME`. -/
theorem C126_namereqd (w : World) (fam : Int) (p q x y z t : UInt8) (host : Nat) (flags : UInt32) (h1 : ¬ Flag flags 1) (h8 : Flag flags 8) (hp : 0 < host)
    (hl : (lookupAddr w x y z t).res = .ok [] ∨ ∃ e, (lookupAddr w x y z t).res = .err e) :
    (getnameinfo w (some ⟨fam, [p, q], [x, y, z, t]⟩) 16 (some host) none flags).ret = .code (-2) := by
  obtain ⟨m, rfl⟩ : ∃ m, host = m + 1 := ⟨host - 1, by omega⟩
  have i1 : has flags 0 = false := by
    rw [Bool.eq_false_iff]
    exact fun h => h1 ((has_iff _ 0).1 h)
  have i3 := (has_iff flags 3).2 h8
  rcases hl with hl | ⟨e, hl⟩
  · simp [getnameinfo, nameRest, nameHost, i1, i3, hl]
  · simp [getnameinfo, nameRest, nameHost, i1, i3, hl]

/-- An answer without records: what `C126_namereqd` and `C126_noname_violation` suppose. -/
example : (lookupAddr ⟨.ok (quadText 8 8 8 8), 0, some 3, true, true, .packet [0, 7, 0x81, 0x83, 0, 0, 0, 0, 0, 0, 0, 0]⟩ 10 0 2 15).res = .ok [] := by
  have hm : Message [0, 7, 0x81, 0x83, 0, 0, 0, 0, 0, 0, 0, 0] ⟨7, 0x8183, [], []⟩ :=
    ⟨by decide, ⟨0, 7, ⟨_, rfl⟩, by decide⟩, ⟨0x81, 0x83, ⟨_, rfl⟩, by decide⟩, ⟨0, ⟨0, 0, ⟨_, rfl⟩, by decide⟩, rfl⟩, ⟨0, ⟨0, 0, ⟨_, rfl⟩, by decide⟩, rfl⟩, 12, 12, .nil 12, .nil 12⟩
  obtain ⟨_, _, h, _⟩ := C125_addr_partial ⟨.ok (quadText 8 8 8 8), 0, some 3, true, true, .packet [0, 7, 0x81, 0x83, 0, 0, 0, 0, 0, 0, 0, 0]⟩ 10 0 2 15 8 8 8 8 3 _ _
    ⟨⟨_, rfl, quadText_quad 8 8 8 8⟩, rfl, rfl, rfl, rfl⟩ hm [] rfl (by simp)
  exact h

/-! ### What the code violates -/

/-- C126, violated by the code: **a service that is no number is ignored**: `getaddrinfo("127.0.0.1", "http")` succeeds with port 0, and so does any text that is no number. -/
theorem C126_service_violation (w : World) : (getaddrinfo w (some loopText) (some [0x68, 0x74, 0x74, 0x70]) none).ret = .code 0
    ∧ (getaddrinfo w (some loopText) (some [0x68, 0x74, 0x74, 0x70]) none).list.map (·.addr.port) = [[0, 0]] := by
  have e : getaddrinfo w (some loopText) (some [0x68, 0x74, 0x74, 0x70]) none = getaddrinfo ⟨.error 0, 0, none, true, true, .lost⟩ (some loopText) (some [0x68, 0x74, 0x74, 0x70]) none := by
    simp only [getaddrinfo, lookupHost, show parseIpv4 (Option.getD (some loopText) (if has (Option.getD (Option.map (·.flags) (none : Option Hints)) 0) 0 then anyText else loopText)) = some [127, 0, 0, 1] by decide +kernel]
  rw [e]
  decide +kernel

/-- C126, violated by the code: **the family asked for is ignored**: hints with `AF_INET6` (24 on Redox, 10 on Linux) give an IPv4 address, for every family and protocol. -/
theorem C126_family_violation (w : World) (family protocol : Int) : (getaddrinfo w (some (quadText 10 0 2 15)) none (some ⟨0, family, 1, protocol⟩)).list.map (fun i => (i.family, i.protocol)) = [(2, 0)] := by
  have h := (C126_numeric w (quadText 10 0 2 15) 10 0 2 15 (quadText_quad 10 0 2 15) none 0 rfl (some ⟨0, family, 1, protocol⟩) none (.inr ⟨by show ¬ Flag 0 2; unfold Flag; decide, rfl⟩)).2.1
  rw [h]
  rfl

/-- C126, violated by the code: **a name without addresses is no error**: the result is 0, with an empty list. -/
theorem C126_empty_violation (w : World) (host : List UInt8) (ls : List (List UInt8)) (a b c d : UInt8) (fd : Nat) (data : List UInt8) (r : Dns) (hh : HostName host ls) (hn : ls.length ≠ 4)
    (hw : Works w a b c d fd data) (hr : Message data r) (he : r.answers = []) : (getaddrinfo w (some host) none none).ret = .code 0 ∧ (getaddrinfo w (some host) none none).list = [] := by
  have h := C126_host_partial w host ls a b c d fd data r hh hn hw hr none 0 rfl none (by unfold Flag; decide) none (.inr ⟨by unfold Flag; decide, rfl⟩)
  rw [show addresses r = [] by simp [addresses, he]] at h
  exact h

/-- C126, violated by the code: **`AI_NUMERICHOST` takes names of four labels**: `www.bbc.co.uk` is 0.0.0.0. -/
theorem C126_numerichost_violation (w : World) :
    (getaddrinfo w (some [0x77, 0x77, 0x77, 0x2E, 0x62, 0x62, 0x63, 0x2E, 0x63, 0x6F, 0x2E, 0x75, 0x6B]) none (some ⟨4, 0, 0, 0⟩)).list.map (·.addr.addr) = [[0, 0, 0, 0]] := by
  have e : parseIpv4 [0x77, 0x77, 0x77, 0x2E, 0x62, 0x62, 0x63, 0x2E, 0x63, 0x6F, 0x2E, 0x75, 0x6B] = some [0, 0, 0, 0] := by decide +kernel
  have h4 : has 4 2 = true := by decide +kernel
  have h2 : has 4 1 = false := by decide +kernel
  simp [getaddrinfo, e, h4, h2, infoLoop]

/-- C126, violated by the code: **`AI_CANONNAME` without a host** is `EAI_BADFLAGS`, but what was allocated is lost. -/
theorem C126_canon_violation (w : World) : (getaddrinfo w none none (some ⟨2, 0, 0, 0⟩)).ret = .code (-1) ∧ (getaddrinfo w none none (some ⟨2, 0, 0, 0⟩)).list = []
    ∧ (getaddrinfo w none none (some ⟨2, 0, 0, 0⟩)).boxes = 1 := by
  have e : parseIpv4 loopText = some [127, 0, 0, 1] := by decide +kernel
  have h0 : has 2 0 = false := by decide +kernel
  have h1 : has 2 1 = true := by decide +kernel
  have h2 : has 2 2 = false := by decide +kernel
  simp [getaddrinfo, e, h0, h1, h2, infoLoop, lookupHost]

/-- C126, violated by the code: **no name, no address**: if the address has no name and none is required, the result is 0, but nothing is written to the buffer; it should get the numeric form. -/
theorem C126_noname_violation (w : World) (fam : Int) (p q x y z t : UInt8) (host : Nat) (flags : UInt32) (h1 : ¬ Flag flags 1) (h8 : ¬ Flag flags 8)
    (hl : (lookupAddr w x y z t).res = .ok []) :
    let o := getnameinfo w (some ⟨fam, [p, q], [x, y, z, t]⟩) 16 (some host) none flags
    o.ret = .code 0 ∧ o.host = none := by
  have i1 : has flags 0 = false := by
    rw [Bool.eq_false_iff]
    exact fun h => h1 ((has_iff _ 0).1 h)
  have i3 : has flags 3 = false := by
    rw [Bool.eq_false_iff]
    exact fun h => h8 ((has_iff _ 3).1 h)
  cases host with
  | zero => exact ⟨rfl, rfl⟩
  | succ m => simp [getnameinfo, nameRest, nameHost, i1, i3, hl]

/-- C126, violated by the code: **the service is always empty** without `NI_NUMERICSERV`; it should be its name, or else the number. -/
theorem C126_service_name_violation (w : World) (sa : SockAddr) (serv : Nat) (flags : UInt32) (hp : 0 < serv) (h2 : ¬ Flag flags 2) :
    getnameinfo w (some sa) 16 none (some serv) flags = ⟨.code 0, none, some [0], [], []⟩ := by
  obtain ⟨n, rfl⟩ : ∃ n, serv = n + 1 := ⟨serv - 1, by omega⟩
  have i1 : has flags 1 = false := by
    rw [Bool.eq_false_iff]
    exact fun h => h2 ((has_iff _ 1).1 h)
  simp [getnameinfo, nameRest, i1]

/-- C126, violated by the code: **a buffer that just holds the name is refused**, with `EAI_MEMORY`. -/
theorem C126_fit_violation (w : World) (fam : Int) (p q x y z t : UInt8) (flags : UInt32) (h1 : ¬ Flag flags 1) (n : List UInt8) (ns : List (List UInt8))
    (hl : (lookupAddr w x y z t).res = .ok ((n ++ [0]) :: ns)) :
    let o := getnameinfo w (some ⟨fam, [p, q], [x, y, z, t]⟩) 16 (some (n.length + 1)) none flags
    o.ret = .code (-10) ∧ o.host = none := by
  have i1 : has flags 0 = false := by
    rw [Bool.eq_false_iff]
    exact fun h => h1 ((has_iff _ 0).1 h)
  simp [getnameinfo, nameRest, nameHost, i1, hl, put]

end Verif.Lookup
