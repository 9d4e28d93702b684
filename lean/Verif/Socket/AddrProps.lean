import Verif.Socket.AddrModel
import Verif.Net.Inet6Props

/-!
# Socket addresses on Redox (C114)
-/

namespace Verif.Socket

open Verif.Mem Verif.Net Verif.Stdlib

variable {N : Type}

/-! ## Specification -/

/-- The first 8 bytes of the `sockaddr_in` of `a.b.c.d`, `port`: family, port and address in network order. -/
def sin (a b c d : UInt8) (port : Nat) : List UInt8 := [2, 0, UInt8.ofNat (port / 256), UInt8.ofNat port, a, b, c, d]

/-- `a.b.c.d:port`. -/
def hostPort (a b c d : UInt8) (port : Nat) : List UInt8 := quadText a b c d ++ 0x3A :: Stdio.numeral 10 false port

/-- How names of internet sockets begin. -/
def InetPrefix (pre : List UInt8) : Prop :=
  pre = text "tcp:" ∨ pre = text "udp:" ∨ pre = text "/scheme/tcp/" ∨ pre = text "/scheme/udp/"

/-- How names of Unix sockets begin (the path which follows begins with `/`). -/
def UnixPrefix (pre : List UInt8) : Prop := pre = text "/scheme/uds_stream" ∨ pre = text "/scheme/uds_dgram"

/-- The table of descriptors with one of them replaced. -/
def Replaced (fds : Fds N) (fd : Nat) (g : Option N) (fds' : Fds N) : Prop := fds' fd = g ∧ ∀ i, i ≠ fd → fds' i = fds i

/-- A 32-bit number in memory. -/
def Int4 (m : Mem UInt8) (p n : Nat) : Prop := n < 2 ^ 32 ∧ Bytes m p (leBytes 4 n)

/-! ## Lemmas -/

theorem dec (n : Nat) : Stdio.digitsOf 10 false n = Stdio.numeral 10 false n := Stdio.digitsOf_eq (by decide) (by decide) _ _

theorem set_replaced (fds : Fds N) (fd : Nat) (g : Option N) : Replaced fds fd g (fds.set fd g) := by
  refine ⟨by simp [Fds.set], fun i h => by simp [Fds.set, h]⟩

theorem replaced_eq {fds fds' : Fds N} {fd : Nat} {g : Option N} (h : Replaced fds fd g fds') : fds' = fds.set fd g := by
  funext i
  by_cases e : i = fd
  · subst e
    simpa [Fds.set] using h.1
  · simpa [Fds.set, e] using h.2 i e

theorem dotted_eq (a b c d : UInt8) : dotted [a, b, c, d] = quadText a b c d := by
  simp [dotted, quadText, dec]

theorem port_bytes {port : Nat} (h : port < 65536) :
    leBytes 2 (be16 (UInt16.ofNat port)).toNat = [UInt8.ofNat (port / 256), UInt8.ofNat port] := by
  rw [be16_toNat, leBytes_swap, UInt16.toNat_ofNat', Nat.mod_eq_of_lt (by omega)]
  have h256 : ∀ n, UInt8.ofNat (n % 256) = UInt8.ofNat n := by
    intro n
    apply UInt8.toNat_inj.1
    simp
  simp [leBytes, h256]

theorem port_eq {port : Nat} (h : port < 65536) : be16 (UInt16.ofNat (leValue [UInt8.ofNat (port / 256), UInt8.ofNat port])) = UInt16.ofNat port := by
  rw [← port_bytes h, leValue_leBytes 2 _ (by have := (be16 (UInt16.ofNat port)).toNat_lt; omega), UInt16.ofNat_toNat, be16_be16]

theorem sin_read {m : Mem UInt8} {p port : Nat} {a b c d : UInt8} {z : List UInt8} (h : Bytes m p (sin a b c d port ++ z)) (hz : z.length = 8) :
    family m p = some 2 ∧ readN m p 16 = some (sin a b c d port ++ z) := by
  constructor
  · have h2 : Bytes m p [2, 0] := (bytes_append (k := (sin a b c d port).drop 2 ++ z)).1 (by simpa [sin] using h) |>.1
    have := h2.readN
    simp only [List.length_cons, List.length_nil] at this
    simp [family, this, leValue]
  · have := h.readN
    rwa [show (sin a b c d port ++ z).length = 16 by simp [sin, hz]] at this

theorem family_of {m : Mem UInt8} {p f : Nat} (h : Bytes m p (leBytes 2 f)) (hf : f < 65536) : family m p = some f := by
  have := h.readN
  rw [leBytes_length] at this
  simp only [family, this, Option.map_some]
  rw [leValue_leBytes 2 f (by omega)]

theorem addressText_inet {m : Mem UInt8} {p port : Nat} {a b c d : UInt8} {z : List UInt8} (h : Bytes m p (sin a b c d port ++ z))
    (hz : z.length = 8) (hp : port < 65536) :
    addressText m .connect p 16 = some (.ok (hostPort a b c d port))
    ∧ addressText m .bind p 16 = some (.ok (0x2F :: hostPort a b c d port)) := by
  obtain ⟨h1, h2⟩ := sin_read h hz
  have e1 : ((sin a b c d port ++ z).drop 2).take 2 = [UInt8.ofNat (port / 256), UInt8.ofNat port] := rfl
  have e2 : ((sin a b c d port ++ z).drop 4).take 4 = [a, b, c, d] := rfl
  have e3 : (UInt16.ofNat port).toNat = port := by
    rw [UInt16.toNat_ofNat']
    omega
  constructor <;>
    simp [addressText, h1, h2, AF_INET, e1, e2, port_eq hp, e3, dotted_eq, dec, hostPort, -List.drop_append, -List.take_append]

theorem hostPort_parts (a b c d : UInt8) (port : Nat) :
    0x3A ∉ quadText a b c d ∧ 0x2F ∉ hostPort a b c d port ∧ (0 : UInt8) ∉ quadText a b c d := by
  have n : ∀ k, Numeral 10 (Stdio.numeral 10 false k) k := fun k => dec k ▸ digits_numeral k
  have hc : ∀ k, (0x3A : UInt8) ∉ Stdio.numeral 10 false k := fun k => (n k).no_colon (by decide)
  have hs : ∀ k, (0x2F : UInt8) ∉ Stdio.numeral 10 false k := fun k => (n k).not_mem (by decide)
  have hz : ∀ k, (0 : UInt8) ∉ Stdio.numeral 10 false k := fun k => (n k).not_mem (by decide)
  refine ⟨?_, ?_, ?_⟩ <;> simp [hostPort, quadText, hc, hs, hz]

theorem cut_eq {x : List UInt8} (h : 0x3A ∉ x) (y : List UInt8) : cutColon (x ++ 0x3A :: y) = some (x, y) := by
  induction x with
  | nil => simp [cutColon]
  | cons b t ih =>
    simp only [List.mem_cons, not_or] at h
    simp [cutColon, ih h.2, Ne.symm h.1]

theorem quad_address (a b c d : UInt8) : Address (quadText a b c d) (a.toNat * 2 ^ 24 + b.toNat * 2 ^ 16 + c.toNat * 2 ^ 8 + d.toNat) := by
  have g : ∀ x : UInt8, CNumber (Stdio.numeral 10 false x.toNat) x.toNat := by
    refine byte_table (P := fun x => CNumber (Stdio.numeral 10 false x.toNat) x.toNat) ?_
    intro i
    refine .inl ⟨?_, dec _ ▸ digits_numeral _⟩
    rw [← dec]
    revert i
    decide +kernel
  refine ⟨[a, b, c, d].map fun x => (Stdio.numeral 10 false x.toNat, x.toNat), ?_, ?_, ?_⟩
  · simp [quadText, List.intercalate]
  · intro x hx
    obtain ⟨y, _, rfl⟩ := List.mem_map.1 hx
    exact g y
  · have := a.toNat_lt
    have := b.toNat_lt
    have := c.toNat_lt
    have := d.toNat_lt
    simp only [List.map_cons, List.map_nil, classful]
    rw [if_pos (by omega)]

theorem net_quad (a b c d : UInt8) : netBytes (a.toNat * 2 ^ 24 + b.toNat * 2 ^ 16 + c.toNat * 2 ^ 8 + d.toNat) = [a, b, c, d] := by
  have := a.toNat_lt
  have := b.toNat_lt
  have := c.toNat_lt
  have := d.toNat_lt
  simp only [netBytes, List.cons.injEq, and_true]
  refine ⟨?_, ?_, ?_, ?_⟩ <;>
  · apply UInt8.toNat_inj.1
    rw [UInt8.toNat_ofNat']
    omega

theorem atonText_quad (a b c d : UInt8) : atonText (quadText a b c d) = some [a, b, c, d] := by
  have hb := bytes_ofList 0 (quadText a b c d ++ [0, 0, 0, 0, 0])
  obtain ⟨_, _, hz⟩ := hostPort_parts a b c d 0
  have hc : CStr (ofList 0 (quadText a b c d ++ [0, 0, 0, 0, 0])) 0 (quadText a b c d) := by
    rw [bytes_append] at hb
    exact ⟨hb.1, hb.2.1, hz⟩
  have hm : Mapped (ofList 0 (quadText a b c d ++ [0, 0, 0, 0, 0])) ((quadText a b c d).length + 1) 4 := by
    intro i hi
    have := hb.mapped ((quadText a b c d).length + 1 + i) (by simp; omega)
    rwa [Nat.zero_add] at this
  unfold atonText
  rw [C41_aton hc hm (quad_address a b c d), net_quad]
  have := (bytes_patch (ofList 0 (quadText a b c d ++ [0, 0, 0, 0, 0])) ((quadText a b c d).length + 1) [a, b, c, d]).readN
  simp only [List.length_cons, List.length_nil] at this
  simp [this]

theorem port_parse {port : Nat} (h : port < 65536) : fromStrRadix 16 10 (Stdio.numeral 10 false port) = some port :=
  fromStr_of (by decide) (by decide) (dec port ▸ digits_numeral port) (by omega)

/-- The memory after the address of an internet socket is stored. -/
def storeIn (m : Mem UInt8) (p lenp n : Nat) (bytes : List UInt8) : Mem UInt8 :=
  patch (patch m p (bytes.take n)) lenp (leBytes 4 (min n 16))

theorem innerAfInet_eq {m : Mem UInt8} {own : Bool} {buf rest : List UInt8} {p lenp n port : Nat} {a b c d : UInt8}
    (hs : (if own then (split 0x2F buf).tail else split 0x2F buf) = hostPort a b c d port :: (split 0x2F rest).tail)
    (hp : port < 65536) (hn : Int4 m lenp n) (hm : Mapped m p (min n 16)) :
    innerAfInet m own buf p lenp = some (storeIn m p lenp n (sin a b c d port ++ [0, 0, 0, 0, 0, 0, 0, 0])) := by
  have hr := hn.2.readN
  rw [leBytes_length] at hr
  unfold innerAfInet
  simp only [hs, List.head?_cons, Option.bind_eq_bind, Option.bind_some]
  rw [show hostPort a b c d port = quadText a b c d ++ 0x3A :: Stdio.numeral 10 false port from rfl, cut_eq (hostPort_parts a b c d port).1]
  simp only [Option.bind_some, port_parse hp, atonText_quad, hr, Option.map_some, leValue_leBytes 4 n (by have := hn.1; omega), port_bytes hp]
  have e : leBytes 2 AF_INET ++ [UInt8.ofNat (port / 256), UInt8.ofNat port] ++ [a, b, c, d] ++ [0, 0, 0, 0, 0, 0, 0, 0]
      = sin a b c d port ++ [0, 0, 0, 0, 0, 0, 0, 0] := rfl
  have el : (sin a b c d port ++ [0, 0, 0, 0, 0, 0, 0, 0]).length = 16 := rfl
  have et : (sin a b c d port ++ [0, 0, 0, 0, 0, 0, 0, 0]).take (min n 16) = (sin a b c d port ++ [0, 0, 0, 0, 0, 0, 0, 0]).take n := by
    rw [← el, ← List.take_eq_take_min]
  rw [e, writeN_eq (by rw [List.length_take, el]; exact hm.mono (by omega)), et]
  simp only [Option.bind_some]
  rw [writeN_eq (by rw [leBytes_length]; exact mapped_patch (by have := hn.2.mapped; rwa [leBytes_length] at this))]
  rfl

/-- The names of internet sockets. -/
theorem inet_name {m : Mem UInt8} {own : Bool} {pre buf : List UInt8} {p lenp : Nat} (hpre : InetPrefix pre) :
    innerGetName m own p lenp (pre ++ buf) = (innerAfInet m own buf p lenp).map fun m => (.ok (), m) := by
  rcases hpre with rfl | rfl | rfl | rfl
  · cases h : innerAfInet m own buf p lenp <;> simp [innerGetName, text, h]
  · cases h : innerAfInet m own buf p lenp <;> simp [innerGetName, text, h]
  · cases h : innerAfInet m own buf p lenp <;> simp [innerGetName, text, h]
  · cases h : innerAfInet m own buf p lenp <;> simp [innerGetName, text, h]

theorem split_first {x : List UInt8} (h : 0x2F ∉ x) {tail : List UInt8} (ht : tail = [] ∨ tail.head? = some 0x2F) :
    split 0x2F (x ++ tail) = x :: (split 0x2F tail).tail := by
  cases tail with
  | nil => simp [split_word h, split]
  | cons b t =>
    obtain rfl : b = 0x2F := by simpa using ht
    rw [split_cons h]
    simp [split]

/-! ## C114 -/

/-- C114, `connect` and `bind` to an internet address: the scheme is given the text `a.b.c.d:port` (with `/` in front for `bind`), the
descriptor then refers to what the scheme has opened, and no other descriptor changes; if the scheme refuses, its error is returned and nothing
changes. -/
theorem C114_inet (k : Kernel N) {m : Mem UInt8} {fds : Fds N} {s p port : Nat} {a b c d : UInt8} {z : List UInt8} {f : N}
    (h : Bytes m p (sin a b c d port ++ z)) (hz : z.length = 8) (hp : port < 65536) (hf : fds s = some f) :
    (∀ g, k.sub f (hostPort a b c d port) = .ok g → ∃ fds', connect k m fds s p 16 = some (.ok (), fds') ∧ Replaced fds s (some g) fds')
    ∧ (∀ e, k.sub f (hostPort a b c d port) = .error e → connect k m fds s p 16 = some (.error e, fds))
    ∧ (∀ g, k.sub f (0x2F :: hostPort a b c d port) = .ok g → ∃ fds', bind k m fds s p 16 = some (.ok (), fds') ∧ Replaced fds s (some g) fds')
    ∧ (∀ e, k.sub f (0x2F :: hostPort a b c d port) = .error e → bind k m fds s p 16 = some (.error e, fds)) := by
  obtain ⟨h1, _⟩ := sin_read h hz
  obtain ⟨t1, t2⟩ := addressText_inet h hz hp
  refine ⟨?_, ?_, ?_, ?_⟩
  · intro g hg
    refine ⟨_, ?_, set_replaced fds s (some g)⟩
    simp [connect, h1, AF_INET, boundInto, t1, hf, hg]
  · intro e he
    simp [connect, h1, AF_INET, boundInto, t1, hf, he]
  · intro g hg
    refine ⟨_, ?_, set_replaced fds s (some g)⟩
    simp [bind, h1, AF_INET, boundInto, t2, hf, hg]
  · intro e he
    simp [bind, h1, AF_INET, boundInto, t2, hf, he]

/-- C114: an internet address of another length is refused with `EINVAL`, an address of another family with `EAFNOSUPPORT`, and the descriptors
stay as they were. `connect` with `AF_UNSPEC` dissolves the connection. -/
theorem C114_family (k : Kernel N) {m : Mem UInt8} {fds : Fds N} {s p len fam : Nat} (h : Bytes m p (leBytes 2 fam)) (hf : fam < 65536) :
    (fam = 2 → len ≠ 16 → connect k m fds s p len = some (.error .EINVAL, fds) ∧ bind k m fds s p len = some (.error .EINVAL, fds))
    ∧ (fam ≠ 2 → fam ≠ 1 → bind k m fds s p len = some (.error .EAFNOSUPPORT, fds))
    ∧ (fam ≠ 2 → fam ≠ 1 → fam ≠ 0 → connect k m fds s p len = some (.error .EAFNOSUPPORT, fds))
    ∧ (∀ f g, fam = 0 → 2 ≤ len → fds s = some f → k.sub f (text "disconnect") = .ok g →
        ∃ fds', connect k m fds s p len = some (.ok (), fds') ∧ Replaced fds s (some g) fds') := by
  have h1 := family_of h hf
  refine ⟨?_, ?_, ?_, ?_⟩
  · rintro rfl hl
    by_cases h2 : len < 2
    · simp [connect, bind, h1, AF_INET, boundInto, addressText, h2]
    · simp [connect, bind, h1, AF_INET, boundInto, addressText, h2, hl]
  · intro h2 h3
    simp [bind, h1, AF_INET, AF_UNIX, h2, h3]
  · intro h2 h3 h4
    simp [connect, h1, AF_INET, AF_UNIX, AF_UNSPEC, h2, h3, h4]
  · rintro f g rfl hl hs hg
    refine ⟨_, ?_, set_replaced fds s (some g)⟩
    have hd : k.sub f disconnect = .ok g := hg
    have h2 : ¬ len < 2 := by omega
    simp [connect, h1, AF_INET, AF_UNIX, AF_UNSPEC, boundInto, addressText, h2, hs, hd]

/-- C114, `getsockname` and `getpeername` of an internet socket: the first bytes of the address, as many as the caller has room for, are stored,
then the length, and nothing else is written. The name of a socket is `tcp:REMOTE/LOCAL` or has another of the prefixes. -/
theorem C114_name (k : Kernel N) {m : Mem UInt8} {fds : Fds N} {s p lenp n port : Nat} {a b c d : UInt8} {pre tail remote : List UInt8} {f : N}
    (hpre : InetPrefix pre) (hf : fds s = some f) (hp : port < 65536) (hn : Int4 m lenp n) (hm : Mapped m p (min n 16))
    (ht : tail = [] ∨ tail.head? = some 0x2F) :
    (k.peer f = .ok (pre ++ hostPort a b c d port ++ tail) → (pre ++ hostPort a b c d port ++ tail).length ≤ 256 →
      getpeername k m fds s p lenp
        = some (.ok (), patch (patch m p ((sin a b c d port ++ [0, 0, 0, 0, 0, 0, 0, 0]).take n)) lenp (leBytes 4 (min n 16))))
    ∧ (0x2F ∉ remote → k.path f = .ok (pre ++ remote ++ 0x2F :: hostPort a b c d port ++ tail) →
      (pre ++ remote ++ 0x2F :: hostPort a b c d port ++ tail).length ≤ 256 →
      getsockname k m fds s p lenp
        = some (.ok (), patch (patch m p ((sin a b c d port ++ [0, 0, 0, 0, 0, 0, 0, 0]).take n)) lenp (leBytes 4 (min n 16)))) := by
  obtain ⟨_, hs, _⟩ := hostPort_parts a b c d port
  constructor
  · intro he hl
    simp only [getpeername, hf, he]
    rw [List.take_of_length_le hl, List.append_assoc, inet_name hpre, innerAfInet_eq (rest := tail) (a := a) (b := b) (c := c) (d := d) (port := port) ?_ hp hn hm]
    · rfl
    · simp only [Bool.false_eq_true, if_false]
      exact split_first hs ht
  · intro hr he hl
    simp only [getsockname, hf, he]
    rw [List.take_of_length_le hl, List.append_assoc, List.append_assoc, inet_name hpre,
      innerAfInet_eq (rest := tail) (a := a) (b := b) (c := c) (d := d) (port := port) ?_ hp hn hm]
    · rfl
    · simp only [if_true, List.cons_append]
      rw [split_cons hr, List.tail_cons]
      exact split_first hs ht

/-- C114: after a successful `connect` to `a.b.c.d:port` `getpeername` gives this address, for every scheme which calls the peer of the socket
by the text it was given. -/
theorem C114_roundtrip (k : Kernel N) {m : Mem UInt8} {fds : Fds N} {s p q lenp n port : Nat} {a b c d : UInt8} {z pre : List UInt8}
    (h : Bytes m p (sin a b c d port ++ z)) (hz : z.length = 8) (hp : port < 65536) (hn : Int4 m lenp n) (hn' : 16 ≤ n) (hm : Mapped m q 16)
    (hq : Disjoint q 16 lenp 4) (hpre : InetPrefix pre) (hk : ∀ f g t, k.sub f t = .ok g → k.peer g = .ok (pre ++ t))
    {fds' : Fds N} (hc : connect k m fds s p 16 = some (.ok (), fds')) :
    ∃ m', getpeername k m fds' s q lenp = some (.ok (), m') ∧ Bytes m' q (sin a b c d port ++ [0, 0, 0, 0, 0, 0, 0, 0]) ∧ Int4 m' lenp 16
      ∧ ∀ x, x < q ∨ q + 16 ≤ x → x < lenp ∨ lenp + 4 ≤ x → m' x = m x := by
  have hl : (pre ++ hostPort a b c d port ++ []).length ≤ 256 := by
    have h1 := quadText_length a b c d
    have h2 : (Stdio.numeral 10 false port).length ≤ 5 := by
      rw [← dec]
      rw [Stdio.digitsOf]
      split
      · simp
      · have := digits_length (port / 10 / 10) (by omega)
        rw [Stdio.digitsOf]
        split
        · simp
        · simp
          omega
    have h3 : pre.length ≤ 12 := by rcases hpre with rfl | rfl | rfl | rfl <;> decide
    simp [hostPort]
    omega
  cases hf : fds s with
  | none =>
    exfalso
    obtain ⟨h1, _⟩ := sin_read h hz
    obtain ⟨t1, _⟩ := addressText_inet h hz hp
    simp [connect, h1, AF_INET, boundInto, t1, hf] at hc
  | some f =>
    obtain ⟨r1, r2, _⟩ := C114_inet k h hz hp hf
    cases hg : k.sub f (hostPort a b c d port) with
    | error e =>
      rw [r2 e hg] at hc
      cases hc
    | ok g =>
      obtain ⟨fds'', e1, e2⟩ := r1 g hg
      rw [e1] at hc
      cases hc
      have hpeer := hk f g _ hg
      rw [← List.append_nil (pre ++ hostPort a b c d port)] at hpeer
      refine ⟨_, (C114_name k hpre e2.1 hp hn (hm.mono (by omega)) (.inl rfl) (tail := []) (remote := [])).1 hpeer hl, ?_, ?_, ?_⟩
      · rw [List.take_of_length_le (by simpa [sin] using hn')]
        refine (bytes_patch _ _ _).patch_disjoint ?_
        rw [leBytes_length]
        simpa [sin, Disjoint, or_comm] using hq
      · rw [show min n 16 = 16 by omega]
        exact ⟨by decide, bytes_patch _ _ _⟩
      · intro x h1 h2
        rw [patch_out (by rw [leBytes_length]; omega), patch_out]
        rw [List.take_of_length_le (by simpa [sin] using hn')]
        simpa [sin] using h1

/-- What `accept` stores and opens. -/
theorem C114_accept (k : Kernel N) {m : Mem UInt8} {fds : Fds N} {s p lenp n slot port : Nat} {a b c d : UInt8} {pre tail : List UInt8} {f g : N}
    (hpre : InetPrefix pre) (hf : fds s = some f) (hslot : fds slot = none) (hg : k.sub f (text "listen") = .ok g) (hp : port < 65536)
    (hn : Int4 m lenp n) (hm : Mapped m p (min n 16)) (hp0 : p ≠ 0) (hl0 : lenp ≠ 0) (ht : tail = [] ∨ tail.head? = some 0x2F) :
    (k.peer g = .ok (pre ++ hostPort a b c d port ++ tail) → (pre ++ hostPort a b c d port ++ tail).length ≤ 256 →
      ∃ fds', accept k m fds s p lenp slot = some (.ok slot, fds',
          patch (patch m p ((sin a b c d port ++ [0, 0, 0, 0, 0, 0, 0, 0]).take n)) lenp (leBytes 4 (min n 16)))
        ∧ Replaced fds slot (some g) fds')
    ∧ (∀ e, k.peer g = .error e → accept k m fds s p lenp slot = some (.error e, fds, m))
    ∧ (∃ fds', accept k m fds s 0 0 slot = some (.ok slot, fds', m) ∧ Replaced fds slot (some g) fds') := by
  have hg' : k.sub f listen = .ok g := hg
  have hset : (fds.set slot (some g)) slot = some g := (set_replaced fds slot (some g)).1
  refine ⟨?_, ?_, ?_⟩
  · intro hpeer hl
    refine ⟨_, ?_, set_replaced fds slot (some g)⟩
    have := (C114_name k (m := m) hpre hset hp hn hm ht (remote := []) (tail := tail) (s := slot)).1 hpeer hl
    simp [accept, hf, hg', hp0, hl0, this]
  · intro e he
    have hback : (fds.set slot (some g)).set slot none = fds := by
      funext i
      by_cases hi : i = slot
      · subst hi
        simp [Fds.set, hslot]
      · simp [Fds.set, hi]
    simp [accept, hf, hg', hp0, hl0, getpeername, hset, he, hback]
  · exact ⟨_, by simp [accept, hf, hg'], set_replaced fds slot (some g)⟩

/-! ### Unix sockets -/

/-- The bytes of the address of a Unix socket with the name `path`: at most 108 bytes of it, with a NUL behind it if there is room. -/
def sun (path : List UInt8) : List UInt8 := [1, 0] ++ path.take 108 ++ if path.length < 108 then [0] else []

theorem sun_length (path : List UInt8) : (sun path).length = 2 + min 108 (path.length + 1) := by
  unfold sun
  split <;> simp <;> omega

theorem innerAfUnix_eq {m : Mem UInt8} {path : List UInt8} {p lenp : Nat} (hm : Mapped m p (sun path).length) (hl : Mapped m lenp 4) :
    innerAfUnix m path p lenp = some (patch (patch m p (sun path)) lenp (leBytes 4 (sun path).length)) := by
  have hlen := sun_length path
  unfold innerAfUnix
  rw [writeN_eq (m := m) (hm.mono (by rw [leBytes_length]; omega))]
  simp only [Option.bind_eq_bind, Option.bind_some]
  have hsub : ∀ i n, i + n ≤ (sun path).length → Mapped m (p + i) n := by
    intro i n h x hx
    have := hm (i + x) (by omega)
    rwa [← Nat.add_assoc] at this
  rw [writeN_eq (mapped_patch (hsub 2 _ (by simp; omega)))]
  simp only [Option.bind_some]
  have e1 : leBytes 2 AF_UNIX = [1, 0] := by decide
  rw [e1]
  have e2 : patch (patch m p [1, 0]) (p + 2) (path.take (min 108 path.length)) = patch m p ([1, 0] ++ path.take 108) := by
    have et : path.take (min 108 path.length) = path.take 108 := (List.take_eq_take_min ..).symm
    rw [et]
    exact patch_append m p [1, 0] _
  rw [e2]
  by_cases h : path.length < 108
  · rw [if_pos (by omega), show min 108 path.length = path.length by omega]
    rw [writeN_eq (mapped_patch (by
      have := hsub (2 + path.length) 1 (by omega)
      rwa [← Nat.add_assoc] at this))]
    simp only [Option.bind_some]
    have e3 : patch (patch m p ([1, 0] ++ path.take 108)) (p + 2 + path.length) [0] = patch m p (sun path) := by
      unfold sun
      rw [if_pos h, ← patch_append m p ([1, 0] ++ path.take 108) [0],
        show (([1, 0] : List UInt8) ++ path.take 108).length = 2 + path.length by simp; omega, Nat.add_assoc]
    rw [e3, writeN_eq (mapped_patch (by rwa [leBytes_length]))]
    rw [hlen, show min 108 (path.length + 1) = path.length + 1 by omega]
  · rw [if_neg (by omega), writeN_eq (mapped_patch (by rwa [leBytes_length]))]
    rw [hlen, show min 108 (path.length + 1) = 108 by omega, show min 108 path.length = 108 by omega]
    unfold sun
    rw [if_neg h, List.append_nil]

theorem unix_name {m : Mem UInt8} {own : Bool} {pre path : List UInt8} {p lenp : Nat} (hpre : UnixPrefix pre) (h : path.head? = some 0x2F) :
    innerGetName m own p lenp (pre ++ path) = (innerAfUnix m path p lenp).map fun m => (.ok (), m) := by
  obtain ⟨t, rfl⟩ : ∃ t, path = 0x2F :: t := by
    cases path with
    | nil => simp at h
    | cons b t => exact ⟨t, by simp at h; rw [h]⟩
  rcases hpre with rfl | rfl
  · cases e : innerAfUnix m (0x2F :: t) p lenp <;> simp [innerGetName, text, e]
  · cases e : innerAfUnix m (0x2F :: t) p lenp <;> simp [innerGetName, text, e]

/-- C114, `getsockname` and `getpeername` of a Unix socket, for a caller who has room for the longest address: family, name and terminator are
stored, then the length, and nothing else is written. Missing: callers with less room, whose memory behind the buffer is overwritten
(`C114_unix_violation`). -/
theorem C114_unix_partial (k : Kernel N) {m : Mem UInt8} {fds : Fds N} {s p lenp n : Nat} {pre path : List UInt8} {f : N}
    (hpre : UnixPrefix pre) (h : path.head? = some 0x2F) (hf : fds s = some f) (hn : Int4 m lenp n) (hm : Mapped m p n) (hroom : 110 ≤ n)
    (hl : (pre ++ path).length ≤ 256) :
    (k.path f = .ok (pre ++ path) →
      getsockname k m fds s p lenp = some (.ok (), patch (patch m p (sun path)) lenp (leBytes 4 (sun path).length)))
    ∧ (k.peer f = .ok (pre ++ path) →
      getpeername k m fds s p lenp = some (.ok (), patch (patch m p (sun path)) lenp (leBytes 4 (sun path).length)))
    ∧ (sun path).length ≤ n := by
  have hlen := sun_length path
  have hl4 : Mapped m lenp 4 := by
    have := hn.2.mapped
    rwa [leBytes_length] at this
  have hm' : Mapped m p (sun path).length := hm.mono (by omega)
  refine ⟨?_, ?_, by omega⟩
  · intro he
    simp [getsockname, hf, he, List.take_of_length_le hl, unix_name hpre h, innerAfUnix_eq hm' hl4]
  · intro he
    simp [getpeername, hf, he, List.take_of_length_le hl, unix_name hpre h, innerAfUnix_eq hm' hl4]

/-- C114 fails for Unix sockets: the length the caller gives is not looked at. Whatever room `n` there is, for a name of `n` bytes or more (up
to 107) `getpeername` succeeds and writes the byte behind the room. -/
theorem C114_unix_violation (k : Kernel N) {m : Mem UInt8} {fds : Fds N} {s p lenp n : Nat} {path : List UInt8} {f : N}
    (h : path.head? = some 0x2F) (hf : fds s = some f) (hk : k.peer f = .ok (text "/scheme/uds_stream" ++ path))
    (hn : Int4 m lenp n) (hm : Mapped m p 110) (hn2 : 2 ≤ n) (hlong : n ≤ path.length) (hl : path.length ≤ 107)
    (hd : Disjoint p 110 lenp 4) :
    ∃ m', getpeername k m fds s p lenp = some (.ok (), m') ∧ m' (p + n) = path[n - 2]? := by
  have hlen := sun_length path
  have hl4 : Mapped m lenp 4 := by
    have := hn.2.mapped
    rwa [leBytes_length] at this
  refine ⟨patch (patch m p (sun path)) lenp (leBytes 4 (sun path).length), ?_, ?_⟩
  · have e : (text "/scheme/uds_stream" ++ path).take 256 = text "/scheme/uds_stream" ++ path :=
      List.take_of_length_le (by
        rw [List.length_append, show (text "/scheme/uds_stream").length = 18 by decide]
        omega)
    have hm' : Mapped m p (sun path).length := hm.mono (by omega)
    simp only [getpeername, hf, hk, e, unix_name (.inl rfl) h, innerAfUnix_eq hm' hl4]
    rfl
  · rw [patch_out (by rw [leBytes_length]; simp only [Disjoint] at hd; omega), patch_in (by omega)]
    unfold sun
    rw [List.append_assoc, List.getElem?_append_right (by simpa using hn2),
      List.getElem?_append_left (by simp; omega), List.getElem?_take_of_lt (by simp; omega)]
    rfl

/-- C114, the name of a Unix socket in `bind`: the bytes up to the first NUL byte, within the length of the address. -/
theorem C114_bind_unix_partial (k : Kernel N) {m : Mem UInt8} {fds : Fds N} {s p len : Nat} {name : List UInt8} {f : N}
    (h : Bytes m p [1, 0]) (hlen : 2 ≤ len) (hl : len < 2 ^ 32) (hn : BStr m (p + 2) (min 108 (len - 2)) name) (hf : fds s = some f) :
    bind k m fds s p len = some (k.bindUnix f name, fds) := by
  have h1 : family m p = some 1 := family_of (f := 1) (by simpa [leBytes] using h) (by decide)
  have e : (len + 2 ^ 64 - 2) % 2 ^ 64 = len - 2 := by omega
  have hr : readN m (p + 2) name.length = some name := hn.1.readN
  simp only [bind, h1, Option.bind_eq_bind, Option.bind_some, AF_INET, AF_UNIX, bindName, e, Str.strnlen_eq hn, hr, hf]
  rfl

/-- C114, the name of a Unix socket in `connect`: the bytes up to the first NUL byte, if there is one within the length of the address.
Missing: addresses without one (`C114_connect_unix_violation`). -/
theorem C114_connect_unix_partial (k : Kernel N) {m : Mem UInt8} {fds : Fds N} {s p len : Nat} {name : List UInt8} {f : N}
    (h : Bytes m p [1, 0]) (hn : CStr m (p + 2) name) (_hlen : 2 + name.length < len) (hf : fds s = some f) :
    connect k m fds s p len = some (k.connectUnix f name, fds) := by
  have h1 : family m p = some 1 := family_of (f := 1) (by simpa [leBytes] using h) (by decide)
  have hr : readN m (p + 2) name.length = some name := hn.1.readN
  simp only [connect, h1, Option.bind_eq_bind, Option.bind_some, AF_INET, AF_UNIX, AF_UNSPEC, connectName, Str.strlen_eq hn, hr, hf]
  rfl

/-- C114 fails for `connect`: the length of the address is not looked at. With the same bytes and the same length (`SUN_LEN`, without the NUL)
`bind` takes the name `name` and `connect` takes `name ++ more`, the bytes behind the address included. -/
theorem C114_connect_unix_violation (k : Kernel N) {m : Mem UInt8} {fds : Fds N} {s p : Nat} {name more : List UInt8} {f : N}
    (h : Bytes m p [1, 0]) (hn : CStr m (p + 2) (name ++ more)) (hl : name.length ≤ 108) (hf : fds s = some f) :
    bind k m fds s p (2 + name.length) = some (k.bindUnix f name, fds)
    ∧ connect k m fds s p (2 + name.length) = some (k.connectUnix f (name ++ more), fds) := by
  constructor
  · refine C114_bind_unix_partial k h (by omega) (by omega) ?_ hf
    have := hn.bstr name.length
    rwa [List.take_left, show name.length = min 108 (2 + name.length - 2) by omega] at this
  · have h1 : family m p = some 1 := family_of (f := 1) (by simpa [leBytes] using h) (by decide)
    have hr : readN m (p + 2) (name ++ more).length = some (name ++ more) := hn.1.readN
    simp only [connect, h1, Option.bind_eq_bind, Option.bind_some, AF_INET, AF_UNIX, AF_UNSPEC, connectName, Str.strlen_eq hn, hr, hf]
    rfl

/-- C114 fails for `bind` with an address of less than two bytes: the length wraps around, and the socket is bound to a name which the address
does not contain, where `EINVAL` is expected. -/
theorem C114_bind_unix_violation (k : Kernel N) {m : Mem UInt8} {fds : Fds N} {s p len : Nat} {name : List UInt8} {f : N}
    (h : Bytes m p [1, 0]) (hlen : len < 2) (hn : BStr m (p + 2) 108 name) (hf : fds s = some f) :
    bind k m fds s p len = some (k.bindUnix f name, fds) := by
  have h1 : family m p = some 1 := family_of (f := 1) (by simpa [leBytes] using h) (by decide)
  have e : min 108 ((len + 2 ^ 64 - 2) % 2 ^ 64) = 108 := by omega
  have hr : readN m (p + 2) name.length = some name := hn.1.readN
  simp only [bind, h1, Option.bind_eq_bind, Option.bind_some, AF_INET, AF_UNIX, bindName, e, Str.strnlen_eq hn, hr, hf]
  rfl

/-! ## Examples -/

/-- A scheme whose sockets are their names. -/
def toy : Kernel (List UInt8) where
  sub _ t := if t = listen then .ok (text "tcp:10.0.0.7:8080/1.2.3.4:80") else .ok (text "tcp:" ++ t)
  peer f := .ok f
  path f := .ok f
  bindUnix _ _ := .ok ()
  connectUnix _ _ := .ok ()

/-- `sockaddr_in` of 127.0.0.1:80 at 0, room for an address at 32, its size at 64. -/
def toyMem : Mem UInt8 :=
  ofList 0 (sin 127 0 0 1 80 ++ List.replicate 24 0 ++ List.replicate 32 0xAA ++ [16, 0, 0, 0] ++ List.replicate 100 0xBB)

example : (connect toy toyMem (fun _ => some []) 3 0 16).map (fun r => r.2 3) = some (some (text "tcp:127.0.0.1:80")) := by decide +kernel
example : getpeername toy toyMem (fun _ => some (text "tcp:127.0.0.1:80")) 3 32 64
    = some (.ok (), patch (patch toyMem 32 ([2, 0, 0, 80, 127, 0, 0, 1] ++ [0, 0, 0, 0, 0, 0, 0, 0])) 64 [16, 0, 0, 0]) :=
  (C114_name toy (n := 16) (a := 127) (b := 0) (c := 0) (d := 1) (port := 80) (tail := []) (remote := []) (.inl rfl) rfl (by decide)
    ⟨by decide, by simp only [Bytes, leBytes]; decide +kernel⟩ (by unfold Mapped; decide +kernel) (.inl rfl)).1 (by
      rw [show toy.peer (text "tcp:127.0.0.1:80") = .ok (text "tcp:127.0.0.1:80") from rfl]
      congr 1) (by decide +kernel)
/-- 16 bytes of room, and the 17th is written. -/
example : (getpeername toy toyMem (fun _ => some (text "/scheme/uds_stream/tmp/socket.12345")) 3 32 64).bind (fun r => readN r.2 32 18)
    = some ([1, 0] ++ text "/tmp/socket.1234") := by decide +kernel

end Verif.Socket
