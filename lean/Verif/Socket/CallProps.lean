import Verif.Socket.CallModel
import Verif.Socket.AddrProps
import Verif.Socket.MsgProps

/-! # C117: sockets, pairs of sockets, `sendto`, `recvfrom` and options on Redox -/

namespace Verif.Socket

open Verif.Mem Verif.Net Verif.Stdlib

variable {σ N : Type}

/-! ## Specification -/

/-- Numbers for new descriptors are those of descriptors which are not open. -/
def Fresh (k : Sys σ N) : Prop := ∀ fds i, k.slot fds = some i → fds i = none

/-- The scheme for a domain and a type of sockets. -/
def SchemeOf (domain : Nat) (type : UInt32) (name : List UInt8) : Prop :=
  (domain = 2 ∧ type = 1 ∧ name = text "/scheme/tcp") ∨ (domain = 2 ∧ type = 2 ∧ name = text "/scheme/udp")
  ∨ (domain = 1 ∧ type = 1 ∧ name = text "/scheme/uds_stream") ∨ (domain = 1 ∧ type = 2 ∧ name = text "/scheme/uds_dgram")

/-- `kind` with the flags `SOCK_NONBLOCK` and `SOCK_CLOEXEC`. -/
def withFlags (type : UInt32) (nonblock cloexec : Bool) : UInt32 :=
  type ||| (if nonblock then 0o4000 else 0) ||| (if cloexec then 0o2000000 else 0)

/-- The process with one more descriptor. -/
def Opened (p : Proc σ N) (i : Nat) (n : N) (cloexec : Bool) (st : σ) (p' : Proc σ N) : Prop :=
  p.fds i = none ∧ p'.fds i = some (n, cloexec) ∧ (∀ j, j ≠ i → p'.fds j = p.fds j) ∧ p'.st = st ∧ p'.signals = p.signals

/-- The name of a file says that it is a socket of the domain and the type. -/
def Named (path : List UInt8) (domain type : Nat) : Prop :=
  ∃ pre rest, path = pre ++ rest ∧
    ((domain = 2 ∧ type = 1 ∧ (pre = text "tcp:" ∨ pre = text "/scheme/tcp/"))
    ∨ (domain = 2 ∧ type = 2 ∧ (pre = text "udp:" ∨ pre = text "/scheme/udp/"))
    ∨ (domain = 1 ∧ type = 1 ∧ pre = text "/scheme/uds_stream/") ∨ (domain = 1 ∧ type = 2 ∧ pre = text "/scheme/uds_dgram/"))

/-- The descriptor is open on a socket of the domain and the type. -/
def IsSocket (k : Sys σ N) (p : Proc σ N) (fd domain type : Nat) : Prop :=
  ∃ n c path, p.fds fd = some (n, c) ∧ k.path p.st n = .ok path ∧ Named path domain type

/-! ## Lemmas -/

theorem kind_flags {type : UInt32} (h : type = 1 ∨ type = 2) (nb ce : Bool) :
    socketKind (withFlags type nb ce) = (type, ⟨nb, ce, false⟩) := by
  rcases h with rfl | rfl <;> revert nb ce <;> decide

theorem openFd_cases {k : Sys σ N} (hk : Fresh k) (p : Proc σ N) (name : List UInt8) (fl : Flags) :
    (k.slot p.fds = none ∧ openFd k p name fl = (.error EMFILE, p))
    ∨ (∃ e, k.opn p.st name fl = .error e ∧ openFd k p name fl = (.error e, p))
    ∨ ∃ i n st p', k.slot p.fds = some i ∧ k.opn p.st name fl = .ok (n, st) ∧ openFd k p name fl = (.ok i, p') ∧ Opened p i n fl.cloexec st p' := by
  unfold openFd
  cases hs : k.slot p.fds with
  | none => exact Or.inl ⟨rfl, rfl⟩
  | some i =>
    refine Or.inr ?_
    cases ho : k.opn p.st name fl with
    | error e => exact Or.inl ⟨e, rfl, rfl⟩
    | ok r =>
      obtain ⟨n, st⟩ := r
      refine Or.inr ⟨i, n, st, _, rfl, rfl, rfl, hk _ _ hs, ?_, ?_, rfl, rfl⟩
      · simp [Proc.set]
      · intro j hj
        simp [Proc.set, hj]

theorem dupFd_cases {k : Sys σ N} (hk : Fresh k) (p : Proc σ N) (fd : Nat) (arg : List UInt8) :
    (∃ e, dupFd k p fd arg = (.error e, p) ∧
      (k.slot p.fds = none ∨ p.fds fd = none ∨ ∃ n c, p.fds fd = some (n, c) ∧ k.sub p.st n arg = .error e))
    ∨ ∃ i n c g st p', k.slot p.fds = some i ∧ p.fds fd = some (n, c) ∧ k.sub p.st n arg = .ok (g, st) ∧ dupFd k p fd arg = (.ok i, p')
      ∧ Opened p i g false st p' := by
  unfold dupFd
  cases hs : k.slot p.fds with
  | none => exact Or.inl ⟨_, rfl, Or.inl rfl⟩
  | some i =>
    cases hf : p.fds fd with
    | none => exact Or.inl ⟨_, rfl, Or.inr (Or.inl rfl)⟩
    | some r =>
      obtain ⟨n, c⟩ := r
      dsimp only
      cases ho : k.sub p.st n arg with
      | error e => exact Or.inl ⟨e, rfl, Or.inr (Or.inr ⟨n, c, rfl, ho⟩)⟩
      | ok r =>
        obtain ⟨g, st⟩ := r
        refine Or.inr ⟨i, n, c, g, st, _, rfl, rfl, ho, rfl, hk _ _ hs, ?_, ?_, rfl, rfl⟩
        · simp [Proc.set]
        · intro j hj
          simp [Proc.set, hj]

theorem text_schemes : schemeTcp = text "/scheme/tcp" ∧ schemeUdp = text "/scheme/udp" ∧ schemeStream = text "/scheme/uds_stream"
    ∧ schemeDgram = text "/scheme/uds_dgram" := by decide +kernel

theorem text_prefixes : text "tcp:" = [116, 99, 112, 58] ∧ text "/scheme/tcp/" = schemeTcp ++ [47] ∧ text "udp:" = [117, 100, 112, 58]
    ∧ text "/scheme/udp/" = schemeUdp ++ [47] ∧ text "/scheme/uds_stream/" = schemeStream ++ [47]
    ∧ text "/scheme/uds_dgram/" = schemeDgram ++ [47] := by decide +kernel

theorem isPrefixOf_take {pre l : List UInt8} (h : pre.length ≤ 256) : pre.isPrefixOf (l.take 256) = true ↔ ∃ r, l = pre ++ r := by
  rw [List.isPrefixOf_iff_prefix]
  constructor
  · intro hp
    obtain ⟨r, hr⟩ := hp.trans (List.take_prefix 256 l)
    exact ⟨r, hr.symm⟩
  · rintro ⟨r, rfl⟩
    rw [List.take_append, List.take_of_length_le h]
    exact ⟨_, rfl⟩

/-- `socket_domain_type` recognizes exactly the names of sockets. -/
theorem domainTypeOf_iff (path : List UInt8) (d : Nat) (t : UInt32) : domainTypeOf path = .ok (d, t) ↔ Named path d t.toNat := by
  obtain ⟨t1, t2, t3, t4, t5, t6⟩ := text_prefixes
  have P1 := isPrefixOf_take (pre := [116, 99, 112, 58]) (l := path) (by decide)
  have P2 := isPrefixOf_take (pre := schemeTcp ++ [47]) (l := path) (by decide)
  have P3 := isPrefixOf_take (pre := [117, 100, 112, 58]) (l := path) (by decide)
  have P4 := isPrefixOf_take (pre := schemeUdp ++ [47]) (l := path) (by decide)
  have P5 := isPrefixOf_take (pre := schemeStream ++ [47]) (l := path) (by decide)
  have P6 := isPrefixOf_take (pre := schemeDgram ++ [47]) (l := path) (by decide)
  have hc : ∀ (n : UInt32) (k : Nat), n.toNat = k → k < 2 ^ 32 → n = UInt32.ofNat k := by
    intro n k h hk
    apply UInt32.toNat_inj.1
    rw [h, UInt32.toNat_ofNat', Nat.mod_eq_of_lt hk]
  constructor
  · intro h
    unfold domainTypeOf at h
    dsimp only at h
    split at h
    · rename_i hp
      cases h
      rw [Bool.or_eq_true] at hp
      rcases hp with hp | hp
      · obtain ⟨r, hr⟩ := P1.1 hp
        exact ⟨_, r, hr, Or.inl ⟨rfl, rfl, Or.inl t1.symm⟩⟩
      · obtain ⟨r, hr⟩ := P2.1 hp
        exact ⟨_, r, hr, Or.inl ⟨rfl, rfl, Or.inr t2.symm⟩⟩
    · split at h
      · rename_i hp
        cases h
        rw [Bool.or_eq_true] at hp
        rcases hp with hp | hp
        · obtain ⟨r, hr⟩ := P3.1 hp
          exact ⟨_, r, hr, Or.inr (Or.inl ⟨rfl, rfl, Or.inl t3.symm⟩)⟩
        · obtain ⟨r, hr⟩ := P4.1 hp
          exact ⟨_, r, hr, Or.inr (Or.inl ⟨rfl, rfl, Or.inr t4.symm⟩)⟩
      · split at h
        · rename_i hp
          cases h
          obtain ⟨r, hr⟩ := P5.1 hp
          exact ⟨_, r, hr, Or.inr (Or.inr (Or.inl ⟨rfl, rfl, t5.symm⟩))⟩
        · split at h
          · rename_i hp
            cases h
            obtain ⟨r, hr⟩ := P6.1 hp
            exact ⟨_, r, hr, Or.inr (Or.inr (Or.inr ⟨rfl, rfl, t6.symm⟩))⟩
          · cases h
  · rintro ⟨pre, rest, rfl, ⟨rfl, ht, rfl | rfl⟩ | ⟨rfl, ht, rfl | rfl⟩ | ⟨rfl, ht, rfl⟩ | ⟨rfl, ht, rfl⟩⟩ <;>
      rw [hc t _ ht (by decide)] <;> unfold domainTypeOf <;>
      first | rw [t1] | rw [t2] | rw [t3] | rw [t4] | rw [t5] | rw [t6]
    all_goals (simp [schemeTcp, schemeUdp, schemeStream, schemeDgram, List.take, List.isPrefixOf]; first | done | exact ⟨rfl, rfl⟩ | rfl)

theorem domainType_iff (k : Sys σ N) (p : Proc σ N) (fd d : Nat) (t : UInt32) : domainType k p fd = .ok (d, t) ↔ IsSocket k p fd d t.toNat := by
  unfold domainType IsSocket
  cases hf : p.fds fd with
  | none => simp
  | some r =>
    obtain ⟨n, c⟩ := r
    dsimp only
    cases hp : k.path p.st n with
    | error e =>
      constructor
      · intro h; cases h
      · rintro ⟨n', c', path, h1, h2, _⟩
        cases h1
        rw [hp] at h2
        cases h2
    | ok l =>
      dsimp only
      rw [domainTypeOf_iff]
      constructor
      · intro h
        exact ⟨n, c, l, rfl, hp, h⟩
      · rintro ⟨n', c', path, h1, h2, h3⟩
        cases h1
        rw [hp] at h2
        cases h2
        exact h3

theorem mask_bit (x : UInt32) {i : Nat} {c : UInt32} (hc : c.toBitVec = BitVec.twoPow 32 i) :
    (if x &&& c = c then x &&& ~~~c else x) = x &&& ~~~c := by
  split
  · rfl
  · rename_i h
    have h1 : x.toBitVec &&& BitVec.twoPow 32 i = 0#32 := by
      rw [BitVec.and_twoPow]
      split
      · rename_i hb
        refine absurd ?_ h
        apply UInt32.toBitVec_inj.1
        rw [UInt32.toBitVec_and, hc, BitVec.and_twoPow, if_pos hb]
      · rfl
    apply UInt32.toBitVec_inj.1
    rw [UInt32.toBitVec_and, UInt32.toBitVec_not, hc]
    apply BitVec.eq_of_getLsbD_eq
    intro j hj
    have h2 := congrArg (fun b => b.getLsbD j) h1
    simp only [BitVec.getLsbD_and, BitVec.getLsbD_not, BitVec.getLsbD_zero, hj, decide_true, Bool.true_and] at h2 ⊢
    revert h2
    cases x.toBitVec.getLsbD j <;> cases (BitVec.twoPow 32 i).getLsbD j <;> simp

theorem kind_mask (kind : UInt32) : (socketKind kind).1 = kind &&& ~~~0o2004000 := by
  have h1 := mask_bit kind (i := 11) (c := SOCK_NONBLOCK) (by decide)
  have h2 := mask_bit (kind &&& ~~~SOCK_NONBLOCK) (i := 19) (c := SOCK_CLOEXEC) (by decide)
  have h3 : kind &&& ~~~SOCK_NONBLOCK &&& ~~~SOCK_CLOEXEC = kind &&& ~~~0o2004000 := by
    rw [UInt32.and_assoc]
    rfl
  have e : (socketKind kind).1 = (if (if kind &&& SOCK_NONBLOCK = SOCK_NONBLOCK then kind &&& ~~~SOCK_NONBLOCK else kind) &&& SOCK_CLOEXEC = SOCK_CLOEXEC
      then (if kind &&& SOCK_NONBLOCK = SOCK_NONBLOCK then kind &&& ~~~SOCK_NONBLOCK else kind) &&& ~~~SOCK_CLOEXEC
      else (if kind &&& SOCK_NONBLOCK = SOCK_NONBLOCK then kind &&& ~~~SOCK_NONBLOCK else kind)) := by
    unfold socketKind
    by_cases a : kind &&& SOCK_NONBLOCK = SOCK_NONBLOCK
    · simp only [if_pos a]
      by_cases b : kind &&& ~~~SOCK_NONBLOCK &&& SOCK_CLOEXEC = SOCK_CLOEXEC
      · simp only [if_pos b]
      · simp only [if_neg b]
    · simp only [if_neg a]
      by_cases b : kind &&& SOCK_CLOEXEC = SOCK_CLOEXEC
      · simp only [if_pos b]
      · simp only [if_neg b]
  rw [e, h1, h2, h3]

/-! ## Theorems -/

/-- C117, `socket`: the scheme for the domain and the type is opened with the flags asked for, and the new descriptor refers to what it gives,
with `FD_CLOEXEC` if asked for; nothing else changes. If the scheme refuses, its error is returned and nothing changes. -/
theorem C117_socket {k : Sys σ N} (hk : Fresh k) (p : Proc σ N) {domain : Nat} {type : UInt32} {name : List UInt8} (h : SchemeOf domain type name)
    (nonblock cloexec : Bool) (protocol : UInt32) :
    (k.slot p.fds = none → socket k p domain (withFlags type nonblock cloexec) protocol = (.error (.other 24), p))
    ∧ (∀ i, k.slot p.fds = some i →
      (∀ e, k.opn p.st name ⟨nonblock, cloexec, domain == 1⟩ = .error e → socket k p domain (withFlags type nonblock cloexec) protocol = (.error e, p))
      ∧ (∀ n st, k.opn p.st name ⟨nonblock, cloexec, domain == 1⟩ = .ok (n, st) →
        ∃ p', socket k p domain (withFlags type nonblock cloexec) protocol = (.ok i, p') ∧ Opened p i n cloexec st p')) := by
  obtain ⟨s1, s2, s3, s4⟩ := text_schemes
  have hs : socket k p domain (withFlags type nonblock cloexec) protocol = openFd k p name ⟨nonblock, cloexec, domain == 1⟩ := by
    rcases h with ⟨rfl, rfl, rfl⟩ | ⟨rfl, rfl, rfl⟩ | ⟨rfl, rfl, rfl⟩ | ⟨rfl, rfl, rfl⟩ <;>
      simp [socket, AF_INET, AF_UNIX, kind_flags, SOCK_STREAM, SOCK_DGRAM, s1, s2, s3, s4]
  rw [hs]
  refine ⟨fun h0 => by simp [openFd, h0, EMFILE], fun i hi => ⟨fun e he => by simp [openFd, hi, he], fun n st ho => ?_⟩⟩
  rcases openFd_cases hk p name ⟨nonblock, cloexec, domain == 1⟩ with ⟨h1, _⟩ | ⟨e, h1, _⟩ | ⟨j, n', st', p', h1, h2, h3, h4⟩
  · rw [hi] at h1; cases h1
  · rw [ho] at h1; cases h1
  · rw [hi] at h1
    rw [ho] at h2
    cases h1
    cases h2
    exact ⟨p', h3, h4⟩

/-- C117: `socket` refuses every other domain with `EAFNOSUPPORT` and every other type with `EPROTONOSUPPORT`, `socketpair` everything but Unix
sockets of the two types with `EPROTONOSUPPORT`. -/
theorem C117_unsupported (k : Sys σ N) (p : Proc σ N) (domain : Nat) (kind protocol : UInt32) :
    (domain ≠ 1 → domain ≠ 2 → socket k p domain kind protocol = (.error .EAFNOSUPPORT, p))
    ∧ (domain = 1 ∨ domain = 2 → kind &&& ~~~0o2004000 ≠ 1 → kind &&& ~~~0o2004000 ≠ 2 →
      socket k p domain kind protocol = (.error (.other 93), p))
    ∧ (domain ≠ 1 ∨ (kind &&& ~~~0o2004000 ≠ 1 ∧ kind &&& ~~~0o2004000 ≠ 2) → socketpair k p domain kind protocol = (.error (.other 93), p)) := by
  rw [← kind_mask]
  refine ⟨?_, ?_, ?_⟩
  · intro h1 h2
    simp [socket, AF_INET, AF_UNIX, h1, h2]
  · rintro (rfl | rfl) h1 h2 <;> simp [socket, AF_INET, AF_UNIX, SOCK_STREAM, SOCK_DGRAM, h1, h2, EPROTONOSUPPORT]
  · rintro (h1 | ⟨h1, h2⟩)
    · simp [socketpair, AF_UNIX, h1, EPROTONOSUPPORT]
    · simp [socketpair, SOCK_STREAM, SOCK_DGRAM, h1, h2, EPROTONOSUPPORT]

/-- C117 `socketpair`, as far as it holds: two new descriptors, one connected to the other, and nothing else changes; the descriptor used
in between is closed. If it fails, since there is no number or since the scheme refuses, the descriptors are as before.

What is missing is `SOCK_CLOEXEC`: `C117_cloexec_violation`. -/
theorem C117_socketpair_partial {k : Sys σ N} (hk : Fresh k) (p : Proc σ N) {type : UInt32} {name : List UInt8} (h : SchemeOf 1 type name)
    (nonblock cloexec : Bool) (protocol : UInt32) :
    (∃ e p', socketpair k p 1 (withFlags type nonblock cloexec) protocol = (.error e, p') ∧ p'.fds = p.fds ∧ p'.signals = p.signals
      ∧ ((∃ fds, k.slot fds = none) ∨ k.opn p.st name ⟨nonblock, cloexec, true⟩ = .error e ∨ ∃ st n arg, k.sub st n arg = .error e))
    ∨ ∃ a b p' l s1 s2 na nb ca cb, socketpair k p 1 (withFlags type nonblock cloexec) protocol = (.ok (a, b), p')
      ∧ a ≠ b ∧ p.fds a = none ∧ p.fds b = none ∧ p'.fds a = some (na, ca) ∧ p'.fds b = some (nb, cb)
      ∧ (∀ j, j ≠ a → j ≠ b → p'.fds j = p.fds j) ∧ p'.signals = p.signals
      ∧ k.opn p.st name ⟨nonblock, cloexec, true⟩ = .ok (l, s1) ∧ k.sub s1 l (text "connect") = .ok (na, s2)
      ∧ ((type = 1 ∧ k.sub s2 l (text "listen") = .ok (nb, p'.st)) ∨ (type = 2 ∧ nb = l ∧ p'.st = s2)) := by
  obtain ⟨_, _, t3, t4⟩ := text_schemes
  have a1 : argConnect = text "connect" := by decide +kernel
  have a2 : listen = text "listen" := by decide +kernel
  have hother : ∀ {q q' : Proc σ N} {i : Nat} {n : N} {c : Bool} {st : σ}, Opened q i n c st q' → (closeFd q' i).fds = q.fds := by
    intro q q' i n c st ho
    funext j
    by_cases hj : j = i
    · subst hj
      simp [closeFd, Proc.set, ho.1]
    · simp [closeFd, Proc.set, hj, ho.2.2.1 j hj]
  rcases h with ⟨h, _⟩ | ⟨h, _⟩ | ⟨_, rfl, rfl⟩ | ⟨_, rfl, rfl⟩
  · cases h
  · cases h
  · have hs : socketpair k p 1 (withFlags 1 nonblock cloexec) protocol =
        match openFd k p schemeStream ⟨nonblock, cloexec, true⟩ with
        | (.error e, p) => (.error e, p)
        | (.ok l, p) => match dupFd k p l argConnect with
          | (.error e, p) => (.error e, closeFd p l)
          | (.ok a, p) => match dupFd k p l listen with
            | (.error e, p) => (.error e, closeFd (closeFd p a) l)
            | (.ok b, p) => (.ok (a, b), closeFd p l) := by
      simp only [socketpair, kind_flags (type := 1) (Or.inl rfl)]
      rw [if_pos ⟨rfl, rfl⟩]
      rfl
    rw [hs, ← t3]
    rcases openFd_cases hk p schemeStream ⟨nonblock, cloexec, true⟩ with ⟨h1, h2⟩ | ⟨e, h1, h2⟩ | ⟨l, nl, s1, p1, h1, h2, h3, h4⟩
    · exact Or.inl ⟨_, _, by rw [h2], rfl, rfl, Or.inl ⟨_, h1⟩⟩
    · exact Or.inl ⟨_, _, by rw [h2], rfl, rfl, Or.inr (Or.inl h1)⟩
    · rw [h3]
      dsimp only
      have hl : p1.fds l = some (nl, cloexec) := h4.2.1
      rcases dupFd_cases hk p1 l argConnect with ⟨e, g1, g2⟩ | ⟨a, n, c, na, s2, p2, g1, g2, g3, g4, g5⟩
      · refine Or.inl ⟨e, closeFd p1 l, by rw [g1], hother h4, h4.2.2.2.2, ?_⟩
        rcases g2 with g2 | g2 | ⟨n, c, _, g2⟩
        · exact Or.inl ⟨_, g2⟩
        · rw [hl] at g2; cases g2
        · exact Or.inr (Or.inr ⟨_, _, _, g2⟩)
      · rw [g4]
        dsimp only
        rw [hl] at g2
        cases g2
        rw [h4.2.2.2.1] at g3
        have hal : a ≠ l := by
          rintro rfl
          have := g5.1
          rw [hl] at this
          cases this
        rcases dupFd_cases hk p2 l listen with ⟨e, f1, f2⟩ | ⟨b, n, c, nb, s3, p3, f1, f2, f3, f4, f5⟩
        · refine Or.inl ⟨e, closeFd (closeFd p2 a) l, by rw [f1], ?_, ?_, ?_⟩
          · rw [← hother h4]
            funext j
            have := congrFun (hother g5) j
            simp only [closeFd, Proc.set] at this ⊢
            split
            · rfl
            · exact this
          · show p2.signals = _
            rw [g5.2.2.2.2, h4.2.2.2.2]
          · rcases f2 with f2 | f2 | ⟨n, c, _, f2⟩
            · exact Or.inl ⟨_, f2⟩
            · rw [g5.2.2.1 l (Ne.symm hal), hl] at f2
              cases f2
            · exact Or.inr (Or.inr ⟨_, _, _, f2⟩)
        · rw [f4]
          dsimp only
          rw [g5.2.2.1 l (Ne.symm hal), hl] at f2
          cases f2
          rw [g5.2.2.2.1] at f3
          have hab : a ≠ b := by
            rintro rfl
            have := f5.1
            rw [g5.2.1] at this
            cases this
          have hbl : b ≠ l := by
            rintro rfl
            have := f5.1
            rw [g5.2.2.1 b (Ne.symm hal), hl] at this
            cases this
          refine Or.inr ⟨a, b, closeFd p3 l, nl, s1, s2, na, nb, false, false, rfl, hab, ?_, ?_, ?_, ?_, ?_, ?_, h2, a1 ▸ g3, Or.inl ⟨rfl, ?_⟩⟩
          · rw [← h4.2.2.1 a hal]
            exact g5.1
          · rw [← h4.2.2.1 b hbl, ← g5.2.2.1 b (Ne.symm hab)]
            exact f5.1
          · simp only [closeFd, Proc.set, if_neg hal]
            rw [f5.2.2.1 a hab]
            exact g5.2.1
          · simp only [closeFd, Proc.set, if_neg hbl]
            exact f5.2.1
          · intro j ja jb
            simp only [closeFd, Proc.set]
            split
            · rename_i hj
              rw [hj, h4.1]
            · rename_i hj
              rw [f5.2.2.1 j jb, g5.2.2.1 j ja, h4.2.2.1 j hj]
          · show p3.signals = _
            rw [f5.2.2.2.2, g5.2.2.2.2, h4.2.2.2.2]
          · show _ = Except.ok (nb, p3.st)
            rw [← a2, f5.2.2.2.1]
            exact f3
  · have hs : socketpair k p 1 (withFlags 2 nonblock cloexec) protocol =
        match openFd k p schemeDgram ⟨nonblock, cloexec, true⟩ with
        | (.error e, p) => (.error e, p)
        | (.ok l, p) => match dupFd k p l argConnect with
          | (.error e, p) => (.error e, closeFd p l)
          | (.ok a, p) => (.ok (a, l), p) := by
      simp only [socketpair, kind_flags (type := 2) (Or.inr rfl)]
      rw [if_neg (by decide), if_pos ⟨rfl, rfl⟩]
      rfl
    rw [hs, ← t4]
    rcases openFd_cases hk p schemeDgram ⟨nonblock, cloexec, true⟩ with ⟨h1, h2⟩ | ⟨e, h1, h2⟩ | ⟨l, nl, s1, p1, h1, h2, h3, h4⟩
    · exact Or.inl ⟨_, _, by rw [h2], rfl, rfl, Or.inl ⟨_, h1⟩⟩
    · exact Or.inl ⟨_, _, by rw [h2], rfl, rfl, Or.inr (Or.inl h1)⟩
    · rw [h3]
      dsimp only
      have hl : p1.fds l = some (nl, cloexec) := h4.2.1
      rcases dupFd_cases hk p1 l argConnect with ⟨e, g1, g2⟩ | ⟨a, n, c, na, s2, p2, g1, g2, g3, g4, g5⟩
      · refine Or.inl ⟨e, closeFd p1 l, by rw [g1], hother h4, h4.2.2.2.2, ?_⟩
        rcases g2 with g2 | g2 | ⟨n, c, _, g2⟩
        · exact Or.inl ⟨_, g2⟩
        · rw [hl] at g2; cases g2
        · exact Or.inr (Or.inr ⟨_, _, _, g2⟩)
      · rw [g4]
        dsimp only
        rw [hl] at g2
        cases g2
        rw [h4.2.2.2.1] at g3
        have hal : a ≠ l := by
          rintro rfl
          have := g5.1
          rw [hl] at this
          cases this
        refine Or.inr ⟨a, l, p2, nl, s1, s2, na, nl, false, cloexec, rfl, hal, ?_, h4.1, g5.2.1, ?_, ?_, ?_, h2, a1 ▸ g3,
          Or.inr ⟨rfl, rfl, g5.2.2.2.1⟩⟩
        · rw [← h4.2.2.1 a hal]
          exact g5.1
        · rw [g5.2.2.1 l (Ne.symm hal)]
          exact hl
        · intro j ja jb
          rw [g5.2.2.1 j ja, h4.2.2.1 j jb]
        · rw [g5.2.2.2.2, h4.2.2.2.2]

/-- C117 is violated: `socketpair` with `SOCK_CLOEXEC` gives descriptors without `FD_CLOEXEC`, both for streams, the first one for datagrams. -/
theorem C117_cloexec_violation {k : Sys σ N} (hk : Fresh k) (p : Proc σ N) {type : UInt32} (ht : type = 1 ∨ type = 2)
    (nonblock : Bool) (protocol : UInt32) {a b : Nat} {p' : Proc σ N}
    (h : socketpair k p 1 (withFlags type nonblock true) protocol = (.ok (a, b), p')) :
    (∃ n, p'.fds a = some (n, false)) ∧ (type = 1 → ∃ n, p'.fds b = some (n, false)) := by
  have hd : ∀ {q q' : Proc σ N} {l i : Nat} {arg : List UInt8}, dupFd k q l arg = (.ok i, q') →
      q.fds i = none ∧ (∃ n, q'.fds i = some (n, false)) ∧ ∀ j, j ≠ i → q'.fds j = q.fds j := by
    intro q q' l i arg hq
    rcases dupFd_cases hk q l arg with ⟨e, g1, _⟩ | ⟨a, n, c, na, s2, p2, g1, g2, g3, g4, g5⟩
    · rw [g1] at hq; cases hq
    · rw [g4] at hq
      cases hq
      exact ⟨g5.1, ⟨_, g5.2.1⟩, g5.2.2.1⟩
  have ho : ∀ {q q' : Proc σ N} {i : Nat} {name : List UInt8} {fl : Flags}, openFd k q name fl = (.ok i, q') → ∃ r, q'.fds i = some r := by
    intro q q' i name fl hq
    rcases openFd_cases hk q name fl with ⟨_, g1⟩ | ⟨e, _, g1⟩ | ⟨j, n, st, q1, _, _, g3, g4⟩
    · rw [g1] at hq; cases hq
    · rw [g1] at hq; cases hq
    · rw [g3] at hq
      cases hq
      exact ⟨_, g4.2.1⟩
  unfold socketpair at h
  rw [kind_flags ht] at h
  dsimp only at h
  split at h
  · cases h1 : openFd k p schemeStream ⟨nonblock, true, true⟩ with
    | mk r p1 => cases r with
      | error e => rw [h1] at h; cases h
      | ok l =>
        rw [h1] at h
        dsimp only at h
        cases h2 : dupFd k p1 l argConnect with
        | mk r p2 => cases r with
          | error e => rw [h2] at h; cases h
          | ok a' =>
            rw [h2] at h
            dsimp only at h
            cases h3 : dupFd k p2 l listen with
            | mk r p3 => cases r with
              | error e => rw [h3] at h; cases h
              | ok b' =>
                rw [h3] at h
                cases h
                obtain ⟨r, hl⟩ := ho h1
                obtain ⟨e1, ⟨n1, e2⟩, e3⟩ := hd h2
                obtain ⟨f1, ⟨n2, f2⟩, f3⟩ := hd h3
                have hal : a ≠ l := by
                  rintro rfl
                  rw [hl] at e1
                  cases e1
                have hbl : b ≠ l := by
                  rintro rfl
                  rw [e3 b (Ne.symm hal), hl] at f1
                  cases f1
                have hab : a ≠ b := by
                  rintro rfl
                  rw [e2] at f1
                  cases f1
                refine ⟨⟨n1, ?_⟩, fun _ => ⟨n2, ?_⟩⟩
                · simp only [closeFd, Proc.set, if_neg hal]
                  rw [f3 a hab, e2]
                · simp only [closeFd, Proc.set, if_neg hbl]
                  exact f2
  · rename_i hn
    have ht1 : type ≠ 1 := fun h1 => hn ⟨rfl, h1⟩
    refine ⟨?_, fun h1 => absurd h1 ht1⟩
    split at h
    · cases h1 : openFd k p schemeDgram ⟨nonblock, true, true⟩ with
      | mk r p1 => cases r with
        | error e => rw [h1] at h; cases h
        | ok l =>
          rw [h1] at h
          dsimp only at h
          cases h2 : dupFd k p1 l argConnect with
          | mk r p2 => cases r with
            | error e => rw [h2] at h; cases h
            | ok a' =>
              rw [h2] at h
              cases h
              exact (hd h2).2.1
    · cases h

/-- C117 is violated: the protocol is ignored, so that a stream socket with the protocol UDP is a TCP socket. -/
theorem C117_protocol_violation (k : Sys σ N) (p : Proc σ N) (domain : Nat) (kind protocol protocol' : UInt32) :
    socket k p domain kind protocol = socket k p domain kind protocol' ∧ socketpair k p domain kind protocol = socketpair k p domain kind protocol' :=
  ⟨rfl, rfl⟩

/-! ### `sendto` -/

theorem part_fds {k : Sys σ N} (hk : Fresh k) {m : Mem UInt8} {p p' : Proc σ N} {fd buf len dest dlen : Nat} {flags : UInt32} {r : Except Errno Nat}
    (h : sendtoPart k m p fd buf len flags dest dlen = some (r, p')) : p'.fds = p.fds ∧ p'.signals = p.signals := by
  have hw : ∀ (q : Proc σ N) (i : Nat) (l : List UInt8), (writeFd k q i l).2.fds = q.fds ∧ (writeFd k q i l).2.signals = q.signals := by
    intro q i l
    unfold writeFd
    cases q.fds i with
    | none => exact ⟨rfl, rfl⟩
    | some r =>
      dsimp only
      cases k.write q.st r.1 l <;> exact ⟨rfl, rfl⟩
  unfold sendtoPart at h
  split at h
  · unfold sendmsgFd at h
    cases hf : p.fds fd with
    | none =>
      rw [hf] at h
      cases h
      exact ⟨rfl, rfl⟩
    | some r =>
      rw [hf] at h
      dsimp only [Option.bind_eq_bind] at h
      cases hs : sendmsg (k.msg r.1) m p.st ⟨dest, 0, [(buf, len)], 0, 0, 0⟩ flags with
      | none => rw [hs] at h; cases h
      | some x =>
        rw [hs] at h
        cases h
        exact ⟨rfl, rfl⟩
  · split at h
    · dsimp only [Option.bind_eq_bind] at h
      cases hr : readN m buf len with
      | none => rw [hr] at h; cases h
      | some l =>
        rw [hr] at h
        have := hw p fd l
        simp only [Option.bind_some, Option.some.injEq] at h
        rw [h] at this
        exact this
    · dsimp only [Option.bind_eq_bind] at h
      cases ha : addressText m .connect dest dlen with
      | none => rw [ha] at h; cases h
      | some t =>
        rw [ha] at h
        cases t with
        | error e =>
          cases h
          exact ⟨rfl, rfl⟩
        | ok t =>
          simp only [Option.bind_some] at h
          rcases dupFd_cases hk p fd t with ⟨e, g1, _⟩ | ⟨i, n, c, g, st, p1, g1, g2, g3, g4, g5⟩
          · rw [g1] at h
            cases h
            exact ⟨rfl, rfl⟩
          · rw [g4] at h
            dsimp only at h
            cases hr : readN m buf len with
            | none => rw [hr] at h; cases h
            | some l =>
              rw [hr] at h
              simp only [Option.bind_some, Option.some.injEq] at h
              obtain ⟨w1, w2⟩ := hw p1 i l
              have e2 : closeFd (writeFd k p1 i l).2 i = p' := (Prod.mk.injEq _ _ _ _ ▸ h).2
              rw [← e2]
              refine ⟨?_, ?_⟩
              · funext j
                simp only [closeFd, Proc.set, w1]
                split
                · rename_i hj
                  rw [hj, g5.1]
                · rename_i hj
                  rw [g5.2.2.1 j hj]
              · show (writeFd k p1 i l).2.signals = _
                rw [w2, g5.2.2.2.2]

/-- C117, `sendto` and `send`, whatever is sent and wherever: the descriptors of the process are as before (the one which is used for the
destination is closed), and `SIGPIPE` is raised exactly if the result is `EPIPE`, the socket is a stream, and `MSG_NOSIGNAL` is not given. -/
theorem C117_sigpipe {k : Sys σ N} (hk : Fresh k) {m : Mem UInt8} {p p' : Proc σ N} {fd buf len dest dlen : Nat} {flags : UInt32}
    {r : Except Errno Nat} (h : sendto k m p fd buf len flags dest dlen = some (r, p')) :
    p'.fds = p.fds
    ∧ ((r = .error (.other 32) ∧ flags &&& 0x4000 = 0 ∧ ∃ d, IsSocket k p' fd d 1) → p'.signals = p.signals ++ [13])
    ∧ (¬ (r = .error (.other 32) ∧ flags &&& 0x4000 = 0 ∧ ∃ d, IsSocket k p' fd d 1) → p'.signals = p.signals) := by
  unfold sendto at h
  dsimp only [Option.bind_eq_bind] at h
  cases hp : sendtoPart k m p fd buf len (flags &&& ~~~MSG_NOSIGNAL) dest dlen with
  | none => rw [hp] at h; cases h
  | some x =>
    obtain ⟨r1, p1⟩ := x
    obtain ⟨h1, h2⟩ := part_fds hk hp
    rw [hp] at h
    simp only [Option.bind_some] at h
    have hsig : ∀ l d t, IsSocket k { p1 with signals := l } fd d t ↔ IsSocket k p1 fd d t := fun _ _ _ => Iff.rfl
    cases r1 with
    | ok c =>
      cases h
      refine ⟨h1, ?_, fun _ => h2⟩
      rintro ⟨h, _⟩
      cases h
    | error e =>
      dsimp only at h
      by_cases he : e = EPIPE
      · subst he
        rw [if_pos rfl] at h
        by_cases hn : flags &&& 0x4000 = 0
        · have hb : (flags &&& MSG_NOSIGNAL != 0) = false := by
            show (flags &&& 0x4000 != 0) = false
            rw [hn]
            rfl
          rw [hb] at h
          cases hd : domainType k p1 fd with
          | error e' =>
            rw [hd] at h
            cases h
            refine ⟨h1, ?_, fun _ => h2⟩
            rintro ⟨_, _, d, hs⟩
            have := (domainType_iff k p' fd d 1).2 hs
            rw [hd] at this
            cases this
          | ok dt =>
            obtain ⟨d, t⟩ := dt
            rw [hd] at h
            dsimp only at h
            by_cases ht : t = SOCK_STREAM
            · rw [if_pos ht] at h
              cases h
              refine ⟨h1, fun _ => by rw [← h2]; rfl, fun hneg => ?_⟩
              refine absurd ⟨rfl, hn, d, ?_⟩ hneg
              have := (domainType_iff k p1 fd d t).1 hd
              rw [ht] at this
              exact this
            · rw [if_neg ht] at h
              cases h
              refine ⟨h1, ?_, fun _ => h2⟩
              rintro ⟨_, _, d', hs⟩
              have := (domainType_iff k p' fd d' 1).2 hs
              rw [hd] at this
              cases this
              exact absurd rfl ht
        · have hb : (flags &&& MSG_NOSIGNAL != 0) = true := by
            show (flags &&& 0x4000 != 0) = true
            simpa using hn
          rw [hb] at h
          have h' : some ((Except.error EPIPE : Except Errno Nat), p1) = some (r, p') := by
            revert h
            cases domainType k p1 fd <;> exact id
          cases h'
          exact ⟨h1, fun hx => absurd hx.2.1 hn, fun _ => h2⟩
      · rw [if_neg he] at h
        cases h
        refine ⟨h1, ?_, fun _ => h2⟩
        rintro ⟨h, _⟩
        cases h
        exact absurd rfl he

/-- The result of `sendto` is that of the part without signals. -/
theorem sendto_result {k : Sys σ N} {m : Mem UInt8} {p p1 : Proc σ N} {fd buf len dest dlen : Nat} {flags : UInt32} {r : Except Errno Nat}
    (h : sendtoPart k m p fd buf len (flags &&& ~~~MSG_NOSIGNAL) dest dlen = some (r, p1)) :
    ∃ p', sendto k m p fd buf len flags dest dlen = some (r, p') ∧ p'.st = p1.st := by
  unfold sendto
  dsimp only [Option.bind_eq_bind]
  rw [h]
  simp only [Option.bind_some]
  cases r with
  | ok c => exact ⟨_, rfl, rfl⟩
  | error e =>
    dsimp only
    split
    · cases (flags &&& MSG_NOSIGNAL != 0) <;> cases domainType k p1 fd with
      | error _ => exact ⟨_, rfl, rfl⟩
      | ok x =>
        dsimp only
        try split
        all_goals exact ⟨_, rfl, rfl⟩
    · exact ⟨_, rfl, rfl⟩

/-- C117, `send`: without flags (`MSG_NOSIGNAL` is allowed) the bytes of the buffer are written to the socket, and the result is that of the
write. -/
theorem C117_send (k : Sys σ N) {m : Mem UInt8} {p : Proc σ N} {fd buf dlen : Nat} {flags : UInt32} {l : List UInt8} {n : N} {c : Bool}
    (hf : flags &&& ~~~0x4000 = 0) (hl : Bytes m buf l) (ho : p.fds fd = some (n, c)) :
    (∀ w st, k.write p.st n l = .ok (w, st) → ∃ p', sendto k m p fd buf l.length flags 0 dlen = some (.ok w, p') ∧ p'.st = st)
    ∧ (∀ e, k.write p.st n l = .error e → ∃ p', sendto k m p fd buf l.length flags 0 dlen = some (.error e, p') ∧ p'.st = p.st) := by
  have hr : readN m buf l.length = some l := hl.readN
  have hm : flags &&& ~~~MSG_NOSIGNAL = 0 := hf
  refine ⟨fun w st hw => ?_, fun e he => ?_⟩
  · have hp : sendtoPart k m p fd buf l.length (flags &&& ~~~MSG_NOSIGNAL) 0 dlen = some (.ok w, { p with st := st }) := by
      simp [sendtoPart, hm, hr, writeFd, ho, hw]
    exact sendto_result hp
  · have hp : sendtoPart k m p fd buf l.length (flags &&& ~~~MSG_NOSIGNAL) 0 dlen = some (.error e, p) := by
      simp [sendtoPart, hm, hr, writeFd, ho, he]
    exact sendto_result hp

/-- C117, `sendto` with an internet address, as far as it holds: without flags the scheme derives from the socket one which is connected to
`a.b.c.d:port`, the bytes of the buffer are written to that, and the result is that of the write; the socket itself stays as it is
(`C117_sigpipe`). If the scheme refuses the destination, nothing is written.

What is missing: `C117_dest_violation` with flags, `C117_unix_violation` for Unix sockets. -/
theorem C117_sendto_partial {k : Sys σ N} {m : Mem UInt8} {p : Proc σ N} {fd buf dest port i : Nat} {flags : UInt32}
    {l z : List UInt8} {n : N} {cl : Bool} {a b c d : UInt8}
    (hf : flags &&& ~~~0x4000 = 0) (hl : Bytes m buf l) (ho : p.fds fd = some (n, cl)) (hi : k.slot p.fds = some i)
    (hd : Bytes m dest (sin a b c d port ++ z)) (hz : z.length = 8) (hp : port < 65536) (h0 : dest ≠ 0) :
    (∀ e, k.sub p.st n (hostPort a b c d port) = .error e →
      ∃ p', sendto k m p fd buf l.length flags dest 16 = some (.error e, p') ∧ p'.st = p.st)
    ∧ (∀ g s1, k.sub p.st n (hostPort a b c d port) = .ok (g, s1) →
      (∀ w s2, k.write s1 g l = .ok (w, s2) → ∃ p', sendto k m p fd buf l.length flags dest 16 = some (.ok w, p') ∧ p'.st = s2)
      ∧ (∀ e, k.write s1 g l = .error e → ∃ p', sendto k m p fd buf l.length flags dest 16 = some (.error e, p') ∧ p'.st = s1)) := by
  have hr : readN m buf l.length = some l := hl.readN
  have hm : flags &&& ~~~MSG_NOSIGNAL = 0 := hf
  have ht := (addressText_inet hd hz hp).1
  refine ⟨fun e he => ?_, fun g s1 hg => ⟨fun w s2 hw => ?_, fun e he => ?_⟩⟩
  · have hp : sendtoPart k m p fd buf l.length (flags &&& ~~~MSG_NOSIGNAL) dest 16 = some (.error e, p) := by
      simp [sendtoPart, hm, h0, ht, dupFd, hi, ho, he]
    exact sendto_result hp
  · have hp : ∃ p1, sendtoPart k m p fd buf l.length (flags &&& ~~~MSG_NOSIGNAL) dest 16 = some (.ok w, p1) ∧ p1.st = s2 := by
      refine ⟨_, by simp only [sendtoPart, hm, h0, ht, dupFd, hi, ho, hg, hr, writeFd, Proc.set, hw, ne_eq, not_true, if_false, false_or,
        Option.bind_eq_bind, Option.bind_some, if_pos, Nat.reduceEqDiff]; rfl, rfl⟩
    obtain ⟨p1, hp, rfl⟩ := hp
    exact sendto_result hp
  · have hp : ∃ p1, sendtoPart k m p fd buf l.length (flags &&& ~~~MSG_NOSIGNAL) dest 16 = some (.error e, p1) ∧ p1.st = s1 := by
      refine ⟨_, by simp only [sendtoPart, hm, h0, ht, dupFd, hi, ho, hg, hr, writeFd, Proc.set, he, ne_eq, not_true, if_false, false_or,
        Option.bind_eq_bind, Option.bind_some, if_pos, Nat.reduceEqDiff]; rfl, rfl⟩
    obtain ⟨p1, hp, rfl⟩ := hp
    exact sendto_result hp

/-- C117 is violated: with any flag but `MSG_NOSIGNAL` the destination is ignored; what is sent, and the result, are the same for every
destination. -/
theorem C117_dest_violation (k : Sys σ N) (m : Mem UInt8) (p : Proc σ N) (fd buf len dest dlen dest' dlen' : Nat) {flags : UInt32}
    (h : flags &&& ~~~0x4000 ≠ 0) : sendto k m p fd buf len flags dest dlen = sendto k m p fd buf len flags dest' dlen' := by
  have hm : flags &&& ~~~MSG_NOSIGNAL ≠ 0 := h
  have e : sendtoPart k m p fd buf len (flags &&& ~~~MSG_NOSIGNAL) dest dlen = sendtoPart k m p fd buf len (flags &&& ~~~MSG_NOSIGNAL) dest' dlen' := by
    unfold sendtoPart
    rw [if_pos hm, if_pos hm]
    unfold sendmsgFd
    cases p.fds fd with
    | none => rfl
    | some r =>
      have := C113_dest_violation (k.msg r.1) m p.st ⟨dest', 0, [(buf, len)], 0, 0, 0⟩ (flags &&& ~~~MSG_NOSIGNAL) dest 0
      dsimp only at this ⊢
      rw [this]
  unfold sendto
  rw [e]

/-- C117 is violated: `sendto` with the name of a Unix socket fails with `EAFNOSUPPORT`. -/
theorem C117_unix_violation (k : Sys σ N) {m : Mem UInt8} {p : Proc σ N} {fd buf len dest dlen : Nat} {flags : UInt32}
    (hf : flags &&& ~~~0x4000 = 0) (hd : Bytes m dest (leBytes 2 1)) (h0 : dest ≠ 0) (hl : 2 ≤ dlen) :
    ∃ p', sendto k m p fd buf len flags dest dlen = some (.error .EAFNOSUPPORT, p') ∧ p'.st = p.st := by
  have hm : flags &&& ~~~MSG_NOSIGNAL = 0 := hf
  have hfam : family m dest = some 1 := by
    unfold family
    rw [show (2 : Nat) = (leBytes 2 1).length from rfl, hd.readN]
    rfl
  have ht : addressText m .connect dest dlen = some (.error .EAFNOSUPPORT) := by
    simp [addressText, Nat.not_lt.2 hl, hfam, AF_INET, AF_UNIX]
  have hp : sendtoPart k m p fd buf len (flags &&& ~~~MSG_NOSIGNAL) dest dlen = some (.error .EAFNOSUPPORT, p) := by
    simp [sendtoPart, hm, h0, ht, show dlen ≠ 0 by omega]
  exact sendto_result hp

/-! ### `recvfrom` -/

/-- C117, `recv` without flags (or `recvfrom` without an address): what the scheme delivers is in the buffer, its length is the result, and
nothing else changes. -/
theorem C117_recv (k : Sys σ N) {m : Mem UInt8} {p : Proc σ N} {fd buf len alen loc : Nat} {n : N} {c : Bool} (ho : p.fds fd = some (n, c))
    (hm : Mapped m buf len) :
    (∀ l st, k.read p.st n len = .ok (l, st) → l.length ≤ len →
      ∃ m', recvfrom k m p fd buf len 0 0 alen loc = some (.ok l.length, m', { p with st := st }) ∧ Bytes m' buf l
        ∧ ∀ a, a < buf ∨ buf + l.length ≤ a → m' a = m a)
    ∧ (∀ e, k.read p.st n len = .error e → recvfrom k m p fd buf len 0 0 alen loc = some (.error e, m, p)) := by
  refine ⟨fun l st h hl => ⟨patch m buf l, ?_, bytes_patch _ _ _, fun a ha => patch_out ha⟩, fun e he => by simp [recvfrom, ho, he]⟩
  simp [recvfrom, ho, h, writeN_eq (hm.mono hl)]

/-- C117, `recvfrom` with an address, as far as it holds: for a datagram of the sender `a.b.c.d:port` the first bytes are in the buffer, their
number is the result, the address of the sender is stored as far as there is room for it, and `*address_len` is the number of its bytes stored;
nothing else changes (`loc` is a variable of the function).

What is missing: POSIX wants the whole length of the address in `*address_len`, and what is delivered if there is no room for an address is not the
datagram (`C117_noaddress_violation`). -/
theorem C117_recvfrom_partial (k : Sys σ N) {m : Mem UInt8} {p : Proc σ N} {fd buf len addr alen loc n port : Nat} {flags : UInt32} {f : N} {cl : Bool}
    {pre payload : List UInt8} {a b c d : UInt8} {st : σ}
    (ho : p.fds fd = some (f, cl)) (hb0 : buf ≠ 0) (ha0 : addr ≠ 0) (hl0 : alen ≠ 0) (hn : Int4 m alen n) (hn0 : 0 < n) (hlen : len < 2 ^ 63)
    (hmb : Mapped m buf len) (hma : Mapped m addr (min n 16)) (hml : Mapped m loc 4)
    (d1 : Disjoint buf len addr (min n 16)) (d2 : Disjoint buf len alen 4) (d3 : Disjoint buf len loc 4)
    (d4 : Disjoint addr (min n 16) alen 4) (d5 : Disjoint addr (min n 16) loc 4) (d6 : Disjoint alen 4 loc 4)
    (hpre : InetPrefix pre) (hport : port < 65536) (hpl : payload.length < 2 ^ 64)
    (hs : (k.msg f).recv p.st flags n len 0 (88 + n + len) = .ok (stream (pre ++ hostPort a b c d port) payload len [], st))
    (hsize : (stream (pre ++ hostPort a b c d port) payload len []).length ≤ 88 + n + len) :
    ∃ m', recvfrom k m p fd buf len flags addr alen loc = some (.ok (min payload.length len), m', { p with st := st })
      ∧ Bytes m' buf (payload.take len)
      ∧ Bytes m' addr ((sin a b c d port ++ [0, 0, 0, 0, 0, 0, 0, 0]).take n)
      ∧ Int4 m' alen (min n 16)
      ∧ ∀ x, (x < buf ∨ buf + len ≤ x) → (x < addr ∨ addr + min n 16 ≤ x) → (x < alen ∨ alen + 4 ≤ x) → (x < loc ∨ loc + 4 ≤ x) → m' x = m x := by
  have hsz : ((sin a b c d port ++ [0, 0, 0, 0, 0, 0, 0, 0]).take n).length = min n 16 := by
    rw [List.length_take]
    rfl
  have h4 : ∀ v, (leBytes 4 v).length = 4 := fun v => leBytes_length 4 v
  have hN : n < 2 ^ 32 := hn.1
  -- the local variable
  have w1 : writeN m loc (leBytes 4 n) = some (patch m loc (leBytes 4 n)) := writeN_eq (by rw [h4]; exact hml)
  obtain ⟨old, hol, hob⟩ := hmb.exists_bytes
  let m0 := patch m loc (leBytes 4 n)
  let m1 := patch (patch m0 addr ((sin a b c d port ++ [0, 0, 0, 0, 0, 0, 0, 0]).take n)) loc (leBytes 4 (min n 16))
  have hn' : Int4 m0 loc n := ⟨hN, bytes_patch _ _ _⟩
  have hname : NameStored m0 ⟨addr, loc, [(buf, len)], 0, 0, 0⟩ n (pre ++ hostPort a b c d port) m1 :=
    Or.inr (Or.inr ⟨pre, a, b, c, d, port, hpre, hport, rfl, hn0, ha0, mapped_patch hma, rfl⟩)
  have hob1 : Bytes m1 buf old := by
    refine Bytes.patch_disjoint (Bytes.patch_disjoint (Bytes.patch_disjoint hob ?_) ?_) ?_
    · rw [h4, hol]; unfold Disjoint at *; omega
    · rw [hsz, hol]; unfold Disjoint at *; omega
    · rw [h4, hol]; unfold Disjoint at *; omega
  have hold : ([old] : List (List UInt8)).flatten.length = len := by simpa using hol
  have hstl : (pre ++ hostPort a b c d port).length < 2 ^ 64 := by
    have : (stream (pre ++ hostPort a b c d port) payload len []).length
        = 8 + ((pre ++ hostPort a b c d port).length + (8 + ((payload.take len).length + 0))) := by
      simp only [stream, List.length_append, leBytes_length, List.length_nil]
    omega
  obtain ⟨m2, new, g1, g2, g3, g4⟩ := recv_prefix (k.msg f) (m := m0) (m1 := m1) (msg := ⟨addr, loc, [(buf, len)], 0, 0, 0⟩) (n := n)
    (nm := pre ++ hostPort a b c d port) (payload := payload) (ctl := []) (old := [old]) (st := p.st) (st1 := st) (flags := flags) hn' hname hstl hpl
    ⟨hob1, hol, trivial⟩ ⟨by simp, trivial⟩ (by simpa using hb0)
    (by rw [hold]; rw [show 64 + 8 + n + 8 + len + 8 + 0 = 88 + n + len by omega]; exact hs)
    (by rw [hold]; show _ ≤ 64 + 8 + n + 8 + len + 8 + 0; omega)
  rw [if_neg (by simp), hold] at g4
  rw [hold] at g2
  have g3' : ∀ x, (x < buf ∨ buf + len ≤ x) → m2 x = m1 x := fun x hx => g3 x (by simpa using hx)
  -- what is in the buffer
  cases new with
  | nil => exact absurd g1 (by simp [Uio.Holds])
  | cons nb rest =>
    cases rest with
    | cons _ _ => exact absurd g1 (by simp [Uio.Holds])
    | nil =>
      obtain ⟨q1, q2, _⟩ := g1
      simp only [List.flatten_cons, List.flatten_nil, List.append_nil] at g2
      have qb : Bytes m2 buf (payload.take len) := by
        have := (bytes_append (m := m2) (p := buf) (l := payload.take len) (k := old.drop payload.length)).1 (g2 ▸ q1)
        exact this.1
      have qa : Bytes m2 addr ((sin a b c d port ++ [0, 0, 0, 0, 0, 0, 0, 0]).take n) := by
        have : Bytes m1 addr ((sin a b c d port ++ [0, 0, 0, 0, 0, 0, 0, 0]).take n) := by
          refine Bytes.patch_disjoint (bytes_patch _ _ _) ?_
          rw [h4, hsz]; unfold Disjoint at *; omega
        refine this.congr fun x h1 h2 => g3' x ?_
        rw [hsz] at h2
        unfold Disjoint at *
        omega
      have ql : Bytes m2 loc (leBytes 4 (min n 16)) := by
        have : Bytes m1 loc (leBytes 4 (min n 16)) := bytes_patch _ _ _
        refine this.congr fun x h1 h2 => g3' x ?_
        rw [h4] at h2
        unfold Disjoint at *
        omega
      have hmal : Mapped m2 alen 4 := by
        intro i hi
        have e : m2 (alen + i) = m (alen + i) := by
          rw [g3' _ (by unfold Disjoint at *; omega)]
          show patch (patch m0 _ _) _ _ _ = _
          rw [patch_out (by rw [h4]; unfold Disjoint at *; omega), patch_out (by rw [hsz]; unfold Disjoint at *; omega)]
          exact patch_out (by rw [h4]; unfold Disjoint at *; omega)
        rw [e]
        exact hn.2.mapped i (by rw [h4]; exact hi)
      refine ⟨patch m2 alen (leBytes 4 (min n 16)), ?_, ?_, ?_, ⟨by omega, bytes_patch _ _ _⟩, ?_⟩
      · unfold recvfrom
        rw [if_neg (by simp [ha0])]
        have hr1 : readInt m alen 4 = some n := readInt_of hn.2 (by omega)
        have hr2 : readInt m2 loc 4 = some (min n 16) := readInt_of ql (by omega)
        have w2 : writeN m2 alen (leBytes 4 (min n 16)) = some (patch m2 alen (leBytes 4 (min n 16))) := writeN_eq (by rw [h4]; exact hmal)
        rw [if_pos hl0, hr1]
        simp only [Option.bind_eq_bind, Option.bind_some, w1, ho]
        rw [show recvmsg (k.msg f) (patch m loc (leBytes 4 n)) p.st ⟨addr, loc, [(buf, len)], 0, 0, 0⟩ flags = _ from g4]
        simp only [Option.bind_some, if_pos hl0, hr2, w2]
      · refine Bytes.patch_disjoint qb ?_
        rw [h4]
        have : (payload.take len).length ≤ len := by rw [List.length_take]; omega
        unfold Disjoint at *; omega
      · refine Bytes.patch_disjoint qa ?_
        rw [h4, hsz]; unfold Disjoint at *; omega
      · intro x x1 x2 x3 x4
        rw [patch_out (by rw [h4]; exact x3), g3' x x1]
        show patch (patch m0 _ _) _ _ _ = _
        rw [patch_out (by rw [h4]; exact x4), patch_out (by rw [hsz]; exact x2)]
        exact patch_out (by rw [h4]; exact x4)

/-! ### Options -/

/-- C117, `getsockopt` for the domain and the type of a socket: the value is stored and the length is 4. If the descriptor is not open or not
of a socket, an error is returned and nothing is stored. -/
theorem C117_getsockopt (k : Sys σ N) {m : Mem UInt8} {p : Proc σ N} {fd value lenp len : Nat} (hv : value ≠ 0) (hl : lenp ≠ 0)
    (hlen : Int4 m lenp len) (h4 : 4 ≤ len) (hm : Mapped m value 4) (hd : Disjoint value 4 lenp 4) :
    (∀ d t, IsSocket k p fd d t → t < 2 ^ 32 →
      (∃ m', getsockopt k m p fd 1 39 value lenp = some (.ok (), m') ∧ Bytes m' value (leBytes 4 d) ∧ Int4 m' lenp 4
        ∧ ∀ a, (a < value ∨ value + 4 ≤ a) → (a < lenp ∨ lenp + 4 ≤ a) → m' a = m a)
      ∧ (∃ m', getsockopt k m p fd 1 3 value lenp = some (.ok (), m') ∧ Bytes m' value (leBytes 4 t) ∧ Int4 m' lenp 4
        ∧ ∀ a, (a < value ∨ value + 4 ≤ a) → (a < lenp ∨ lenp + 4 ≤ a) → m' a = m a))
    ∧ ((¬ ∃ d t, IsSocket k p fd d t) → ∃ e, getsockopt k m p fd 1 39 value lenp = some (.error e, m)
      ∧ getsockopt k m p fd 1 3 value lenp = some (.error e, m)) := by
  have hlb : ∀ v, (leBytes 4 v).length = 4 := fun v => leBytes_length 4 v
  have hr : readInt m lenp 4 = some len := readInt_of hlen.2 (by have := hlen.1; omega)
  have hopt : ∀ v, ∃ m', optInt m value lenp len (.ok v) = some (.ok (), m') ∧ Bytes m' value (leBytes 4 v) ∧ Int4 m' lenp 4
        ∧ ∀ a, (a < value ∨ value + 4 ≤ a) → (a < lenp ∨ lenp + 4 ≤ a) → m' a = m a := by
    intro v
    have w1 : writeN m value (leBytes 4 v) = some (patch m value (leBytes 4 v)) := writeN_eq (by rw [hlb]; exact hm)
    have w2 : writeN (patch m value (leBytes 4 v)) lenp (leBytes 4 4) = some (patch (patch m value (leBytes 4 v)) lenp (leBytes 4 4)) :=
      writeN_eq (mapped_patch (by simpa [hlb] using hlen.2.mapped))
    refine ⟨patch (patch m value (leBytes 4 v)) lenp (leBytes 4 4), ?_, Bytes.patch_disjoint (bytes_patch _ _ _) ?_, ⟨by decide, bytes_patch _ _ _⟩, ?_⟩
    · unfold optInt
      rw [if_neg hv, if_neg (by omega)]
      simp only [w1, w2, Option.bind_eq_bind, Option.bind_some]
    · rw [hlb, hlb]
      unfold Disjoint at *
      omega
    · intro a h1 h2
      rw [patch_out (by rw [hlb]; exact h2), patch_out (by rw [hlb]; exact h1)]
  have e1 : getsockopt k m p fd 1 39 value lenp = optInt m value lenp len ((domainType k p fd).map (·.1)) := by
    simp [getsockopt, hl, hr, SOL_SOCKET, SO_DOMAIN]
  have e2 : getsockopt k m p fd 1 3 value lenp = optInt m value lenp len ((domainType k p fd).map (·.2.toNat)) := by
    simp [getsockopt, hl, hr, SOL_SOCKET, SO_DOMAIN, SO_ERROR, SO_TYPE]
  refine ⟨fun d t hs ht => ?_, fun hno => ?_⟩
  · have hdt : domainType k p fd = .ok (d, UInt32.ofNat t) := by
      apply (domainType_iff k p fd d (UInt32.ofNat t)).2
      rw [UInt32.toNat_ofNat', Nat.mod_eq_of_lt ht]
      exact hs
    rw [e1, e2, hdt]
    refine ⟨hopt d, ?_⟩
    have : (Except.map (fun x : Nat × UInt32 => x.2.toNat) (Except.ok (d, UInt32.ofNat t)) : Except Errno Nat) = .ok t := by
      show Except.ok (UInt32.ofNat t).toNat = _
      rw [UInt32.toNat_ofNat', Nat.mod_eq_of_lt ht]
    rw [this]
    exact hopt t
  · rw [e1, e2]
    cases hdt : domainType k p fd with
    | ok x => exact absurd ⟨x.1, _, (domainType_iff k p fd x.1 x.2).1 hdt⟩ hno
    | error e =>
      refine ⟨e, ?_, ?_⟩ <;>
      · unfold optInt
        rw [if_neg hv, if_neg (by omega)]
        rfl

/-- C117: NULL and values which are too small are refused: `EFAULT` without a length or without a value, `EINVAL` for less than 4 bytes (16 for
the time limits of `setsockopt`); nothing changes. -/
theorem C117_refused (k : Sys σ N) {m : Mem UInt8} {p : Proc σ N} {fd level name value lenp len : Nat} :
    getsockopt k m p fd level name value 0 = some (.error .EFAULT, m)
    ∧ (name = 39 ∨ name = 3 ∨ name = 4 → lenp ≠ 0 → Int4 m lenp len → getsockopt k m p fd 1 name 0 lenp = some (.error .EFAULT, m))
    ∧ (name = 39 ∨ name = 3 ∨ name = 4 → lenp ≠ 0 → Int4 m lenp len → value ≠ 0 → len < 4 →
      getsockopt k m p fd 1 name value lenp = some (.error .EINVAL, m))
    ∧ (name = 20 ∨ name = 21 → setsockopt k m p fd 1 name 0 len = some (.error .EFAULT, p))
    ∧ (name = 20 ∨ name = 21 → value ≠ 0 → len < 16 → setsockopt k m p fd 1 name value len = some (.error .EINVAL, p)) := by
  refine ⟨by simp [getsockopt], ?_, ?_, ?_, ?_⟩
  · intro hn hl hi
    have hr : readInt m lenp 4 = some len := readInt_of hi.2 (by have := hi.1; omega)
    rcases hn with rfl | rfl | rfl <;> simp [getsockopt, hl, hr, SOL_SOCKET, SO_DOMAIN, SO_ERROR, SO_TYPE, optInt]
  · intro hn hl hi hv h4
    have hr : readInt m lenp 4 = some len := readInt_of hi.2 (by have := hi.1; omega)
    rcases hn with rfl | rfl | rfl <;> simp [getsockopt, hl, hr, SOL_SOCKET, SO_DOMAIN, SO_ERROR, SO_TYPE, optInt, hv, h4]
  · rintro (rfl | rfl) <;> simp [setsockopt, SOL_SOCKET, SO_RCVTIMEO, SO_SNDTIMEO, setTimeout]
  · rintro (rfl | rfl) hv hl <;> simp [setsockopt, SOL_SOCKET, SO_RCVTIMEO, SO_SNDTIMEO, setTimeout, hv, hl]

/-- The time limit of the option. -/
def Limit (name : Nat) (arg : List UInt8) : Prop := (name = 20 ∧ arg = text "read_timeout") ∨ (name = 21 ∧ arg = text "write_timeout")

/-- C117, `setsockopt` for the time limits, for a valid `timeval`: the limit of that name of the socket is set to the seconds and to 1000 times the
microseconds, the result is that of the scheme, and the descriptors are as before. -/
theorem C117_timeout {k : Sys σ N} (hk : Fresh k) {m : Mem UInt8} {p : Proc σ N} {fd value len name sec usec i : Nat} {arg : List UInt8} {n g : N}
    {cl : Bool} {s1 : σ} (ha : Limit name arg) (hv : value ≠ 0) (hl : 16 ≤ len) (ho : p.fds fd = some (n, cl)) (hi : k.slot p.fds = some i)
    (hs : k.sub p.st n arg = .ok (g, s1)) (h8 : Bytes m value (leBytes 8 sec)) (hsec : sec < 2 ^ 64) (h4 : Bytes m (value + 8) (leBytes 4 usec))
    (hu : usec < 1000000) :
    (∀ s2, k.writeTime s1 g sec (usec * 1000) = .ok s2 → ∃ p', setsockopt k m p fd 1 name value len = some (.ok (), p') ∧ p'.fds = p.fds ∧ p'.st = s2
      ∧ p'.signals = p.signals)
    ∧ (∀ e, k.writeTime s1 g sec (usec * 1000) = .error e → ∃ p', setsockopt k m p fd 1 name value len = some (.error e, p') ∧ p'.fds = p.fds
      ∧ p'.st = s1 ∧ p'.signals = p.signals) := by
  have a1 : argRead = text "read_timeout" := by decide +kernel
  have a2 : argWrite = text "write_timeout" := by decide +kernel
  have e : setsockopt k m p fd 1 name value len = setTimeout k m p fd value len arg := by
    rcases ha with ⟨rfl, rfl⟩ | ⟨rfl, rfl⟩ <;> simp [setsockopt, SOL_SOCKET, SO_RCVTIMEO, SO_SNDTIMEO, a1, a2]
  have r8 : readInt m value 8 = some sec := readInt_of h8 (by omega)
  have r4 : readInt m (value + 8) 4 = some usec := readInt_of h4 (by omega)
  have b1 : (BitVec.ofNat 32 usec).toInt = usec := by
    rw [BitVec.toInt_eq_toNat_of_lt, BitVec.toNat_ofNat]
    · omega
    · rw [BitVec.toNat_ofNat]; omega
  have b2 : (BitVec.ofInt 32 ((usec : Int) * 1000)).toNat = usec * 1000 := by
    rw [show ((usec : Int) * 1000) = ((usec * 1000 : Nat) : Int) by omega, BitVec.ofInt_natCast, BitVec.toNat_ofNat]
    omega
  have hfree := hk _ _ hi
  have hfds : ∀ st : σ, (closeFd ({ ({ p with st := s1 } : Proc σ N).set i (some (g, false)) with st := st } : Proc σ N) i).fds = p.fds := by
    intro st
    funext j
    simp only [closeFd, Proc.set]
    split
    · rename_i hj
      rw [hj, hfree]
    · rfl
  have hrange : ¬ (((usec : Int) * 1000) < -2 ^ 31 ∨ 2 ^ 31 ≤ ((usec : Int) * 1000)) := by omega
  rw [e]
  refine ⟨fun s2 h => ?_, fun er h => ?_⟩
  · refine ⟨_, ?_, hfds s2, rfl, rfl⟩
    unfold setTimeout
    rw [if_neg hv, if_neg (by omega)]
    simp only [dupFd, hi, ho, hs, r8, r4, Option.bind_eq_bind, Option.bind_some, b1, if_neg hrange, b2, Proc.set, if_pos, h]
  · refine ⟨_, ?_, hfds s1, rfl, rfl⟩
    unfold setTimeout
    rw [if_neg hv, if_neg (by omega)]
    simp only [dupFd, hi, ho, hs, r8, r4, Option.bind_eq_bind, Option.bind_some, b1, if_neg hrange, b2, Proc.set, if_pos, h]

/-- C117: other options of `SOL_SOCKET` are what the scheme says they are, and `shutdown` is what the scheme does. -/
theorem C117_scheme (k : Sys σ N) {m : Mem UInt8} {p : Proc σ N} {fd name value : Nat} {l : List UInt8} {n : N} {cl : Bool}
    (ho : p.fds fd = some (n, cl)) (hn : name ≠ 20 ∧ name ≠ 21) (hl : Bytes m value l) (how : UInt32) :
    (∀ st, k.setOpt p.st n name l = .ok st → setsockopt k m p fd 1 name value l.length = some (.ok (), { p with st := st }))
    ∧ (∀ e, k.setOpt p.st n name l = .error e → setsockopt k m p fd 1 name value l.length = some (.error e, p))
    ∧ (∀ st, k.shut p.st n how = .ok st → shutdown k p fd how = (.ok (), { p with st := st }))
    ∧ (∀ e, k.shut p.st n how = .error e → shutdown k p fd how = (.error e, p)) := by
  refine ⟨fun st h => ?_, fun e h => ?_, fun st h => by simp [shutdown, ho, h], fun e h => by simp [shutdown, ho, h]⟩ <;>
    simp [setsockopt, SOL_SOCKET, SO_RCVTIMEO, SO_SNDTIMEO, hn.1, hn.2, ho, hl.readN, h]

/-- C117 is violated: `SO_ERROR` is always 0, even if the descriptor is not open. -/
theorem C117_error_violation (k : Sys σ N) {m : Mem UInt8} {p : Proc σ N} {fd value lenp len : Nat} (hv : value ≠ 0) (hl : lenp ≠ 0)
    (hlen : Int4 m lenp len) (h4 : 4 ≤ len) (hm : Mapped m value 4) (hd : Disjoint value 4 lenp 4) :
    ∃ m', getsockopt k m p fd 1 4 value lenp = some (.ok (), m') ∧ Bytes m' value (leBytes 4 0) := by
  have hlb : ∀ v, (leBytes 4 v).length = 4 := fun v => leBytes_length 4 v
  have hr : readInt m lenp 4 = some len := readInt_of hlen.2 (by have := hlen.1; omega)
  have w1 : writeN m value (leBytes 4 0) = some (patch m value (leBytes 4 0)) := writeN_eq (by rw [hlb]; exact hm)
  have w2 : writeN (patch m value (leBytes 4 0)) lenp (leBytes 4 4) = some (patch (patch m value (leBytes 4 0)) lenp (leBytes 4 4)) :=
    writeN_eq (mapped_patch (by simpa [hlb] using hlen.2.mapped))
  refine ⟨patch (patch m value (leBytes 4 0)) lenp (leBytes 4 4), ?_, Bytes.patch_disjoint (bytes_patch _ _ _) ?_⟩
  · simp only [getsockopt, if_neg hl, hr, Option.bind_eq_bind, Option.bind_some]
    simp only [SOL_SOCKET, SO_DOMAIN, SO_ERROR, if_true, Nat.reduceEqDiff, if_false]
    unfold optInt
    rw [if_neg hv, if_neg (by omega)]
    simp only [w1, w2, Option.bind_eq_bind, Option.bind_some]
  · rw [hlb, hlb]
    unfold Disjoint at *
    omega

/-- C117 is violated: `setsockopt` for another level (`TCP_NODELAY` for instance) is without effect and says that it has succeeded, even if the
descriptor is not open. -/
theorem C117_level_violation (k : Sys σ N) (m : Mem UInt8) (p : Proc σ N) (fd name value len : Nat) {level : Nat} (h : level ≠ 1) :
    setsockopt k m p fd level name value len = some (.ok (), p) := by
  simp [setsockopt, SOL_SOCKET, h]

/-- C117 is violated: `listen` succeeds for everything, even if the descriptor is not open. -/
theorem C117_listen_violation (p : Proc σ N) (fd : Nat) (backlog : UInt32) : listenCall p fd backlog = (.ok (), p) := rfl

/-- C117 is violated: a `timeval` with more than a second of microseconds, or a negative number of them, is not refused (`EDOM`) but handed to the
scheme; here 2000000 and -1. -/
theorem C117_usec_violation {k : Sys σ N} {m : Mem UInt8} {p : Proc σ N} {fd value i : Nat} {n g : N} {cl : Bool} {s1 s2 : σ} {u v : Nat}
    (huv : (u = 2000000 ∧ v = 2000000000) ∨ (u = 2 ^ 32 - 1 ∧ v = 2 ^ 32 - 1000))
    (hv : value ≠ 0) (ho : p.fds fd = some (n, cl)) (hi : k.slot p.fds = some i) (hs : k.sub p.st n (text "read_timeout") = .ok (g, s1))
    (h8 : Bytes m value (leBytes 8 0)) (h4 : Bytes m (value + 8) (leBytes 4 u)) (hw : k.writeTime s1 g 0 v = .ok s2) :
    ∃ p', setsockopt k m p fd 1 20 value 16 = some (.ok (), p') ∧ p'.st = s2 := by
  have a1 : argRead = text "read_timeout" := by decide +kernel
  have r8 : readInt m value 8 = some 0 := readInt_of h8 (by omega)
  have r4 : readInt m (value + 8) 4 = some u := readInt_of h4 (by omega)
  have hb : ¬ ((BitVec.ofNat 32 u).toInt * 1000 < -2 ^ 31 ∨ 2 ^ 31 ≤ (BitVec.ofNat 32 u).toInt * 1000)
      ∧ (BitVec.ofInt 32 ((BitVec.ofNat 32 u).toInt * 1000)).toNat = v := by
    rcases huv with ⟨rfl, rfl⟩ | ⟨rfl, rfl⟩ <;> decide +kernel
  refine ⟨closeFd ({ ({ p with st := s1 } : Proc σ N).set i (some (g, false)) with st := s2 } : Proc σ N) i, ?_, rfl⟩
  simp only [setsockopt, SOL_SOCKET, SO_RCVTIMEO, if_true]
  unfold setTimeout
  rw [if_neg hv, if_neg (by omega), a1]
  simp only [dupFd, hi, ho, hs, r8, r4, Option.bind_eq_bind, Option.bind_some, if_neg hb.1, hb.2, Proc.set, if_pos, hw]

/-! ## Examples -/

/-- Schemes which write down what they are asked: what a descriptor refers to is the list of texts it was derived by, the state is what was
written to what. `/gone` cannot be written to. -/
def toySys : Sys (List (List (List UInt8) × List UInt8)) (List (List UInt8)) where
  opn st name _ := .ok ([name], st)
  sub st n arg := .ok (n ++ [arg], st)
  path _ n := .ok (n.headD [] ++ [47])
  read st _ _ := .ok ([104, 105], st)
  write st n l := if n.getD 1 [] = text "gone" then .error (.other 32) else .ok (l.length, st ++ [(n, l)])
  writeTime st n a b := .ok (st ++ [(n, leBytes 8 a ++ leBytes 4 b)])
  getOpt _ _ _ _ := .ok ([], 0)
  setOpt st n _ l := .ok (st ++ [(n, l)])
  shut st _ _ := .ok st
  msg n := { give := fun st _ => .ok st, take := fun st _ _ => .ok ([], st), send := fun st _ l => .ok (st ++ [(n, l)]),
             recv := fun st _ _ _ _ _ => .ok (toyStream, st) }
  slot fds := (List.range 10).find? fun i => (fds i).isNone

def toyProc : Proc (List (List (List UInt8) × List UInt8)) (List (List UInt8)) :=
  ⟨fun i => if i < 3 then some ([text "/scheme/uds_stream", text "gone"], false) else none, [], []⟩

example : Fresh toySys := by
  intro fds i h
  have := List.find?_some h
  simpa using this

/-- A pair of Unix sockets: 3 was used in between; `SOCK_CLOEXEC` is lost. -/
example : (match socketpair toySys toyProc 1 (withFlags 1 false true) 0 with
    | (.ok r, p) => some (r, (List.range 4).map fun j => (p.fds (j + 3)).map fun x => (x.1.getLastD [], x.2))
    | _ => none) = some ((4, 5), [none, some (text "connect", false), some (text "listen", false), none]) := by decide +kernel

/-- A datagram to 1.2.3.4:5. -/
example : (match sendto toySys (ofList 50 (sin 1 2 3 4 5 ++ [0, 0, 0, 0, 0, 0, 0, 0] ++ [104, 105])) (socket toySys toyProc 2 2 0).2 3 66 2 0 50 16 with
    | some (.ok r, p) => some (r, p.st.map (·.1.flatten), p.st.map (·.2), p.signals.length, (p.fds 4).isNone)
    | _ => none) = some (2, [text "/scheme/udp1.2.3.4:5"], [[104, 105]], 0, true) := by decide +kernel

/-- With `MSG_DONTWAIT` the destination is lost. -/
example : (match sendto toySys (ofList 50 (sin 1 2 3 4 5 ++ [0, 0, 0, 0, 0, 0, 0, 0] ++ [104, 105])) (socket toySys toyProc 2 2 0).2 3 66 2 64 50 16 with
    | some (.ok r, p) => some (r, p.st)
    | _ => none) = some (2, [([text "/scheme/udp"], leBytes 8 2 ++ [104, 105])]) := by decide +kernel

/-- A broken stream raises `SIGPIPE`, unless `MSG_NOSIGNAL` is given. -/
example : (match sendto toySys (ofList 50 [104]) toyProc 0 50 1 0 0 0 with | some (.error (.other 32), p) => p.signals | _ => []) = [13]
    ∧ (match sendto toySys (ofList 50 [104]) toyProc 0 50 1 0x4000 0 0 with | some (.error (.other 32), p) => p.signals | _ => [1]) = [] := by
  decide +kernel

/-- C117 is violated: `recv` with a flag has no room for an address; if the scheme sends the address all the same (as for the datagram `hi` of
`toyStream`), the address is taken for the datagram. -/
theorem C117_noaddress_violation :
    (recvfrom toySys (ofList 8 [0, 0, 0, 0, 1, 1, 1, 1]) toyProc 0 12 4 2 0 0 8).bind
      (fun r => (readN r.2.1 12 4).map fun l => (r.1.toOption, l)) = some (some 4, text "3.4:") := by decide +kernel

/-- The datagram `hi` of 1.2.3.4:5, with room for all of the address: the conditions of the theorem can be met. -/
example : ∃ m', recvfrom toySys (ofList 8 ([0, 0, 0, 0, 1, 1, 1, 1] ++ leBytes 4 16 ++ List.replicate 16 9)) toyProc 0 12 4 0 20 16 8
    = some (.ok 2, m', toyProc) ∧ Bytes m' 12 [104, 105] ∧ Bytes m' 20 (sin 1 2 3 4 5 ++ [0, 0, 0, 0, 0, 0, 0, 0]) := by
  obtain ⟨m', h1, h2, h3, _⟩ := C117_recvfrom_partial toySys (m := ofList 8 ([0, 0, 0, 0, 1, 1, 1, 1] ++ leBytes 4 16 ++ List.replicate 16 9)) (p := toyProc)
    (fd := 0) (buf := 12) (len := 4) (addr := 20) (alen := 16) (loc := 8) (n := 16) (port := 5) (flags := 0) (pre := text "udp:") (payload := text "hi")
    (a := 1) (b := 2) (c := 3) (d := 4) (st := []) rfl (by decide) (by decide) (by decide) ⟨by decide, by simp only [Bytes, leBytes]; decide +kernel⟩ (by decide)
    (by decide) (by unfold Mapped; decide +kernel) (by unfold Mapped; decide +kernel) (by unfold Mapped; decide +kernel)
    (.inl (by decide)) (.inl (by decide)) (.inr (by decide)) (.inr (by decide)) (.inr (by decide)) (.inr (by decide))
    (.inr (.inl rfl)) (by decide) (by decide +kernel) (by
      show Except.ok (toyStream, []) = _
      congr 2) (by decide +kernel)
  exact ⟨m', h1, h2, h3⟩

/-- A time limit of 1.5 seconds. -/
example : (match setsockopt toySys (ofList 50 (leBytes 8 1 ++ leBytes 8 500000)) toyProc 0 1 20 50 16 with
    | some (.ok (), p) => some (p.st, (p.fds 3).isNone)
    | _ => none) = some ([([text "/scheme/uds_stream", text "gone", text "read_timeout"], leBytes 8 1 ++ leBytes 4 500000000)], true) := by
  decide +kernel

/-- Domain and type. -/
example : (getsockopt toySys (ofList 50 (leBytes 4 4 ++ [9, 9, 9, 9])) toyProc 0 1 39 54 50).bind (fun r => readN r.2 50 8) = some (leBytes 4 4 ++ leBytes 4 1)
    ∧ (getsockopt toySys (ofList 50 (leBytes 4 4 ++ [9, 9, 9, 9])) toyProc 0 1 3 54 50).bind (fun r => readN r.2 50 8) = some (leBytes 4 4 ++ leBytes 4 1) := by
  decide +kernel

end Verif.Socket
