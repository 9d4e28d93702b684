/-!
# Byte order conversions

`src/header/endian/mod.rs` and `src/header/bits_arpainet/mod.rs`. All of these functions are one of Rust's `to_be`,
`from_be`, `to_le`, `from_le`, which on a little-endian host are `swap_bytes` and the identity.

`swap_bytes` is library code of Rust ("reverses the byte order of the integer"); it is modelled as written in that
sentence: take the bytes of the value, reverse them, read them back.
-/

namespace Verif.Net

/-- `to_le_bytes`: the `n` bytes of a value, least significant first. -/
def leBytes : Nat → Nat → List UInt8
  | 0, _ => []
  | n + 1, v => UInt8.ofNat (v % 256) :: leBytes n (v / 256)

/-- `from_le_bytes`. -/
def leValue : List UInt8 → Nat
  | [] => 0
  | b :: l => b.toNat + 256 * leValue l

/-- `swap_bytes` of an `n`-byte integer. -/
def swapBytes (n v : Nat) : Nat := leValue (leBytes n v).reverse

/-- `u16::to_be`, and `u16::from_be`, on a little-endian host. -/
def be16 (x : UInt16) : UInt16 := UInt16.ofNat (swapBytes 2 x.toNat)
/-- `u32::to_be`, and `u32::from_be`, on a little-endian host. -/
def be32 (x : UInt32) : UInt32 := UInt32.ofNat (swapBytes 4 x.toNat)
/-- `u64::to_be`, and `u64::from_be`, on a little-endian host. -/
def be64 (x : UInt64) : UInt64 := UInt64.ofNat (swapBytes 8 x.toNat)

/-- `be16toh` (`src/header/endian/mod.rs:12-14`). -/
def be16toh (x : UInt16) : UInt16 := be16 x
/-- `be32toh` (`src/header/endian/mod.rs:21-23`). -/
def be32toh (x : UInt32) : UInt32 := be32 x
/-- `be64toh` (`src/header/endian/mod.rs:30-32`). -/
def be64toh (x : UInt64) : UInt64 := be64 x
/-- `htobe16` (`src/header/endian/mod.rs:39-41`). -/
def htobe16 (x : UInt16) : UInt16 := be16 x
/-- `htobe32` (`src/header/endian/mod.rs:48-50`). -/
def htobe32 (x : UInt32) : UInt32 := be32 x
/-- `htobe64` (`src/header/endian/mod.rs:57-59`). -/
def htobe64 (x : UInt64) : UInt64 := be64 x
/-- `htole16` (`src/header/endian/mod.rs:66-68`). -/
def htole16 (x : UInt16) : UInt16 := x
/-- `htole32` (`src/header/endian/mod.rs:75-77`). -/
def htole32 (x : UInt32) : UInt32 := x
/-- `htole64` (`src/header/endian/mod.rs:84-86`). -/
def htole64 (x : UInt64) : UInt64 := x
/-- `le16toh` (`src/header/endian/mod.rs:93-95`). -/
def le16toh (x : UInt16) : UInt16 := x
/-- `le32toh` (`src/header/endian/mod.rs:102-104`). -/
def le32toh (x : UInt32) : UInt32 := x
/-- `le64toh` (`src/header/endian/mod.rs:111-113`). -/
def le64toh (x : UInt64) : UInt64 := x

/-- `htonl` (`src/header/bits_arpainet/mod.rs:7-9`). -/
def htonl (x : UInt32) : UInt32 := be32 x
/-- `htons` (`src/header/bits_arpainet/mod.rs:15-17`). -/
def htons (x : UInt16) : UInt16 := be16 x
/-- `ntohl` (`src/header/bits_arpainet/mod.rs:23-25`). -/
def ntohl (x : UInt32) : UInt32 := be32 x
/-- `ntohs` (`src/header/bits_arpainet/mod.rs:31-33`). -/
def ntohs (x : UInt16) : UInt16 := be16 x

end Verif.Net
