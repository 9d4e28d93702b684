import Verif.Net.EndianModel
import Verif.Mem.Basic
/-!
# Byte order (C40)
-/

namespace Verif.Net
open Verif.Mem

/-! ## Specification -/

/-- The object of `n` bytes at `p` holds the value `v` in the representation of this (little-endian) host: byte `i` has
weight `256 ^ i`. -/
def HostObject (m : Mem UInt8) (p n v : Nat) : Prop :=
  ∀ i, i < n → m (p + i) = some (UInt8.ofNat (v / 256 ^ i))

/-- The `n` bytes at `p` are the value `v` in big-endian (network) order: the first byte is the most significant. -/
def BigEndian (m : Mem UInt8) (p n v : Nat) : Prop :=
  ∀ i, i < n → m (p + i) = some (UInt8.ofNat (v / 256 ^ (n - 1 - i)))

/-- The `n` bytes at `p` are the value `v` in little-endian order: the first byte is the least significant. -/
def LittleEndian (m : Mem UInt8) (p n v : Nat) : Prop :=
  ∀ i, i < n → m (p + i) = some (UInt8.ofNat (v / 256 ^ i))

/-! ## Lemmas -/

theorem leBytes_length (n v : Nat) : (leBytes n v).length = n := by
  induction n generalizing v with
  | zero => rfl
  | succ n ih => simp [leBytes, ih]

theorem leBytes_get (n v i : Nat) (h : i < n) : (leBytes n v)[i]? = some (UInt8.ofNat (v / 256 ^ i)) := by
  induction n generalizing v i with
  | zero => omega
  | succ n ih =>
    cases i with
    | zero =>
      simp only [leBytes, List.getElem?_cons_zero, Nat.pow_zero, Nat.div_one, Option.some.injEq]
      apply UInt8.toNat.inj
      simp
    | succ i =>
      simp only [leBytes, List.getElem?_cons_succ]
      rw [ih _ _ (by omega), Nat.div_div_eq_div_mul, Nat.pow_succ, Nat.mul_comm (256 ^ i)]

theorem leBytes_leValue (l : List UInt8) : leBytes l.length (leValue l) = l := by
  induction l with
  | nil => rfl
  | cons b l ih =>
    have hb := b.toNat_lt
    simp only [List.length_cons, leBytes, leValue]
    rw [Nat.add_mul_mod_self_left, Nat.mod_eq_of_lt (by omega), Nat.add_mul_div_left _ _ (by decide),
      Nat.div_eq_of_lt (by omega), Nat.zero_add, ih]
    simp

theorem leValue_lt (l : List UInt8) : leValue l < 256 ^ l.length := by
  induction l with
  | nil => simp [leValue]
  | cons b l ih =>
    have hb := b.toNat_lt
    simp only [leValue, List.length_cons, Nat.pow_succ]
    omega

theorem leValue_leBytes (n v : Nat) (h : v < 256 ^ n) : leValue (leBytes n v) = v := by
  induction n generalizing v with
  | zero => simp at h; simp [leBytes, leValue, h]
  | succ n ih =>
    rw [Nat.pow_succ] at h
    simp only [leBytes, leValue]
    rw [ih _ (by omega)]
    simp
    omega

theorem leBytes_swap (n v : Nat) : leBytes n (swapBytes n v) = (leBytes n v).reverse := by
  have := leBytes_leValue (leBytes n v).reverse
  rw [List.length_reverse, leBytes_length] at this
  exact this

theorem swap_lt (n v : Nat) : swapBytes n v < 256 ^ n := by
  have := leValue_lt (leBytes n v).reverse
  rwa [List.length_reverse, leBytes_length] at this

theorem swap_swap (n v : Nat) (h : v < 256 ^ n) : swapBytes n (swapBytes n v) = v := by
  rw [swapBytes, leBytes_swap, List.reverse_reverse, leValue_leBytes n v h]

theorem swap_byte (n v i : Nat) (h : i < n) :
    UInt8.ofNat (swapBytes n v / 256 ^ i) = UInt8.ofNat (v / 256 ^ (n - 1 - i)) := by
  have h1 := leBytes_get n (swapBytes n v) i h
  rw [leBytes_swap, List.getElem?_reverse (by rw [leBytes_length]; exact h), leBytes_length,
    leBytes_get n v _ (by omega)] at h1
  exact (Option.some.inj h1).symm

theorem be16_toNat (x : UInt16) : (be16 x).toNat = swapBytes 2 x.toNat :=
  UInt16.toNat_ofNat_of_lt' (swap_lt 2 _)
theorem be32_toNat (x : UInt32) : (be32 x).toNat = swapBytes 4 x.toNat :=
  UInt32.toNat_ofNat_of_lt' (swap_lt 4 _)
theorem be64_toNat (x : UInt64) : (be64 x).toNat = swapBytes 8 x.toNat :=
  UInt64.toNat_ofNat_of_lt' (swap_lt 8 _)

theorem be16_be16 (x : UInt16) : be16 (be16 x) = x :=
  UInt16.toNat.inj (by rw [be16_toNat, be16_toNat, swap_swap 2 _ x.toNat_lt])
theorem be32_be32 (x : UInt32) : be32 (be32 x) = x :=
  UInt32.toNat.inj (by rw [be32_toNat, be32_toNat, swap_swap 4 _ x.toNat_lt])
theorem be64_be64 (x : UInt64) : be64 (be64 x) = x :=
  UInt64.toNat.inj (by rw [be64_toNat, be64_toNat, swap_swap 8 _ x.toNat_lt])

theorem bigEndian_of_swap {m : Mem UInt8} {p n v : Nat} (h : HostObject m p n (swapBytes n v)) :
    BigEndian m p n v := fun i hi => by rw [h i hi, swap_byte n v i hi]

theorem swap_of_bigEndian {m : Mem UInt8} {p n v w : Nat} (hw : w < 256 ^ n) (h : HostObject m p n v)
    (hb : BigEndian m p n w) : swapBytes n v = w := by
  have e : leBytes n v = leBytes n (swapBytes n w) := by
    apply List.ext_getElem?
    intro i
    by_cases hi : i < n
    · rw [leBytes_get n v i hi, leBytes_get n _ i hi, swap_byte n w i hi, ← h i hi, ← hb i hi]
    · rw [List.getElem?_eq_none (by rw [leBytes_length]; omega),
        List.getElem?_eq_none (by rw [leBytes_length]; omega)]
  rw [leBytes_swap] at e
  rw [swapBytes, e, List.reverse_reverse, leValue_leBytes n w hw]

theorem host_of_little {m : Mem UInt8} {p n v w : Nat} (hv : v < 256 ^ n) (hw : w < 256 ^ n) (h : HostObject m p n v)
    (hb : LittleEndian m p n w) : v = w := by
  have e : leBytes n v = leBytes n w := by
    apply List.ext_getElem?
    intro i
    by_cases hi : i < n
    · rw [leBytes_get n v i hi, leBytes_get n _ i hi, ← h i hi, ← hb i hi]
    · rw [List.getElem?_eq_none (by rw [leBytes_length]; omega),
        List.getElem?_eq_none (by rw [leBytes_length]; omega)]
  rw [← leValue_leBytes n v hv, e, leValue_leBytes n w hw]

/-! ## C40 -/

/-- C40, to network order: a variable holding `htonl(x)` (`htons`, `htobe16/32/64`) has the bytes of `x`, most
significant first; one holding `htole16/32/64` least significant first. -/
theorem C40_host_to (m : Mem UInt8) (p : Nat) (x : UInt16) (y : UInt32) (z : UInt64) :
    (HostObject m p 2 (htons x).toNat → BigEndian m p 2 x.toNat)
    ∧ (HostObject m p 4 (htonl y).toNat → BigEndian m p 4 y.toNat)
    ∧ (HostObject m p 2 (htobe16 x).toNat → BigEndian m p 2 x.toNat)
    ∧ (HostObject m p 4 (htobe32 y).toNat → BigEndian m p 4 y.toNat)
    ∧ (HostObject m p 8 (htobe64 z).toNat → BigEndian m p 8 z.toNat)
    ∧ (HostObject m p 2 (htole16 x).toNat → LittleEndian m p 2 x.toNat)
    ∧ (HostObject m p 4 (htole32 y).toNat → LittleEndian m p 4 y.toNat)
    ∧ (HostObject m p 8 (htole64 z).toNat → LittleEndian m p 8 z.toNat) := by
  refine ⟨fun h => ?_, fun h => ?_, fun h => ?_, fun h => ?_, fun h => ?_, id, id, id⟩
  · exact bigEndian_of_swap (be16_toNat x ▸ h)
  · exact bigEndian_of_swap (be32_toNat y ▸ h)
  · exact bigEndian_of_swap (be16_toNat x ▸ h)
  · exact bigEndian_of_swap (be32_toNat y ▸ h)
  · exact bigEndian_of_swap (be64_toNat z ▸ h)

/-- C40, from network order: if the bytes of a variable, read with the most significant first, are the value `w`, then
`ntohl` (`ntohs`, `be16/32/64toh`) of the variable is `w`; likewise for the `le…toh` functions. -/
theorem C40_to_host (m : Mem UInt8) (p w : Nat) (x : UInt16) (y : UInt32) (z : UInt64) :
    (w < 2 ^ 16 → HostObject m p 2 x.toNat → BigEndian m p 2 w → (ntohs x).toNat = w ∧ (be16toh x).toNat = w)
    ∧ (w < 2 ^ 32 → HostObject m p 4 y.toNat → BigEndian m p 4 w → (ntohl y).toNat = w ∧ (be32toh y).toNat = w)
    ∧ (w < 2 ^ 64 → HostObject m p 8 z.toNat → BigEndian m p 8 w → (be64toh z).toNat = w)
    ∧ (w < 2 ^ 16 → HostObject m p 2 x.toNat → LittleEndian m p 2 w → (le16toh x).toNat = w)
    ∧ (w < 2 ^ 32 → HostObject m p 4 y.toNat → LittleEndian m p 4 w → (le32toh y).toNat = w)
    ∧ (w < 2 ^ 64 → HostObject m p 8 z.toNat → LittleEndian m p 8 w → (le64toh z).toNat = w) := by
  refine ⟨fun hw h hb => ?_, fun hw h hb => ?_, fun hw h hb => ?_, fun hw h hb => ?_, fun hw h hb => ?_,
    fun hw h hb => ?_⟩
  · have := swap_of_bigEndian (n := 2) hw h hb
    rw [← be16_toNat] at this
    exact ⟨this, this⟩
  · have := swap_of_bigEndian (n := 4) hw h hb
    rw [← be32_toNat] at this
    exact ⟨this, this⟩
  · have := swap_of_bigEndian (n := 8) hw h hb
    rw [← be64_toNat] at this
    exact this
  · exact host_of_little (n := 2) x.toNat_lt hw h hb
  · exact host_of_little (n := 4) y.toNat_lt hw h hb
  · exact host_of_little (n := 8) z.toNat_lt hw h hb

/-- C40, inverses, in both directions. -/
theorem C40_inverse (x : UInt16) (y : UInt32) (z : UInt64) :
    (ntohs (htons x) = x ∧ htons (ntohs x) = x) ∧ (ntohl (htonl y) = y ∧ htonl (ntohl y) = y)
    ∧ (be16toh (htobe16 x) = x ∧ htobe16 (be16toh x) = x) ∧ (be32toh (htobe32 y) = y ∧ htobe32 (be32toh y) = y)
    ∧ (be64toh (htobe64 z) = z ∧ htobe64 (be64toh z) = z) ∧ (le16toh (htole16 x) = x ∧ htole16 (le16toh x) = x)
    ∧ (le32toh (htole32 y) = y ∧ htole32 (le32toh y) = y) ∧ (le64toh (htole64 z) = z ∧ htole64 (le64toh z) = z) :=
  ⟨⟨be16_be16 x, be16_be16 x⟩, ⟨be32_be32 y, be32_be32 y⟩, ⟨be16_be16 x, be16_be16 x⟩, ⟨be32_be32 y, be32_be32 y⟩,
    ⟨be64_be64 z, be64_be64 z⟩, ⟨rfl, rfl⟩, ⟨rfl, rfl⟩, ⟨rfl, rfl⟩⟩

/-! ## Examples -/

example : htonl 0x01020304 = 0x04030201 := by decide +kernel
example : htons 0x0102 = 0x0201 := by decide +kernel
example : htobe64 0x0102030405060708 = 0x0807060504030201 := by decide +kernel

/-- The hypotheses of `C40_host_to` and `C40_to_host` hold for a variable in memory. -/
example : HostObject (ofList 100 [1, 2, 3, 4]) 100 4 (htonl 0x01020304).toNat
    ∧ BigEndian (ofList 100 [1, 2, 3, 4]) 100 4 0x01020304 := by
  have h : HostObject (ofList 100 [1, 2, 3, 4]) 100 4 (htonl 0x01020304).toNat := by
    intro i hi
    have : i = 0 ∨ i = 1 ∨ i = 2 ∨ i = 3 := by omega
    rcases this with rfl | rfl | rfl | rfl <;> decide +kernel
  exact ⟨h, (C40_host_to _ _ 0 _ 0).2.1 h⟩

end Verif.Net
