/-!
# The tables of messages

`src/header/errno/mod.rs`, `src/header/signal/mod.rs`
-/

namespace Verif.Messages

/-- `STR_ERROR` (`src/header/errno/mod.rs:181-314`). -/
def strError : List (List UInt8) := [
  [0x53, 0x75, 0x63, 0x63, 0x65, 0x73, 0x73],
  [0x4F, 0x70, 0x65, 0x72, 0x61, 0x74, 0x69, 0x6F, 0x6E, 0x20, 0x6E, 0x6F, 0x74, 0x20, 0x70, 0x65, 0x72, 0x6D, 0x69, 0x74, 0x74, 0x65, 0x64],
  [0x4E, 0x6F, 0x20, 0x73, 0x75, 0x63, 0x68, 0x20, 0x66, 0x69, 0x6C, 0x65, 0x20, 0x6F, 0x72, 0x20, 0x64, 0x69, 0x72, 0x65, 0x63, 0x74, 0x6F, 0x72, 0x79],
  [0x4E, 0x6F, 0x20, 0x73, 0x75, 0x63, 0x68, 0x20, 0x70, 0x72, 0x6F, 0x63, 0x65, 0x73, 0x73],
  [0x49, 0x6E, 0x74, 0x65, 0x72, 0x72, 0x75, 0x70, 0x74, 0x65, 0x64, 0x20, 0x73, 0x79, 0x73, 0x74, 0x65, 0x6D, 0x20, 0x63, 0x61, 0x6C, 0x6C],
  [0x49, 0x2F, 0x4F, 0x20, 0x65, 0x72, 0x72, 0x6F, 0x72],
  [0x4E, 0x6F, 0x20, 0x73, 0x75, 0x63, 0x68, 0x20, 0x64, 0x65, 0x76, 0x69, 0x63, 0x65, 0x20, 0x6F, 0x72, 0x20, 0x61, 0x64, 0x64, 0x72, 0x65, 0x73, 0x73],
  [0x41, 0x72, 0x67, 0x75, 0x6D, 0x65, 0x6E, 0x74, 0x20, 0x6C, 0x69, 0x73, 0x74, 0x20, 0x74, 0x6F, 0x6F, 0x20, 0x6C, 0x6F, 0x6E, 0x67],
  [0x45, 0x78, 0x65, 0x63, 0x20, 0x66, 0x6F, 0x72, 0x6D, 0x61, 0x74, 0x20, 0x65, 0x72, 0x72, 0x6F, 0x72],
  [0x42, 0x61, 0x64, 0x20, 0x66, 0x69, 0x6C, 0x65, 0x20, 0x6E, 0x75, 0x6D, 0x62, 0x65, 0x72],
  [0x4E, 0x6F, 0x20, 0x63, 0x68, 0x69, 0x6C, 0x64, 0x20, 0x70, 0x72, 0x6F, 0x63, 0x65, 0x73, 0x73, 0x65, 0x73],
  [0x54, 0x72, 0x79, 0x20, 0x61, 0x67, 0x61, 0x69, 0x6E],
  [0x4F, 0x75, 0x74, 0x20, 0x6F, 0x66, 0x20, 0x6D, 0x65, 0x6D, 0x6F, 0x72, 0x79],
  [0x50, 0x65, 0x72, 0x6D, 0x69, 0x73, 0x73, 0x69, 0x6F, 0x6E, 0x20, 0x64, 0x65, 0x6E, 0x69, 0x65, 0x64],
  [0x42, 0x61, 0x64, 0x20, 0x61, 0x64, 0x64, 0x72, 0x65, 0x73, 0x73],
  [0x42, 0x6C, 0x6F, 0x63, 0x6B, 0x20, 0x64, 0x65, 0x76, 0x69, 0x63, 0x65, 0x20, 0x72, 0x65, 0x71, 0x75, 0x69, 0x72, 0x65, 0x64],
  [0x44, 0x65, 0x76, 0x69, 0x63, 0x65, 0x20, 0x6F, 0x72, 0x20, 0x72, 0x65, 0x73, 0x6F, 0x75, 0x72, 0x63, 0x65, 0x20, 0x62, 0x75, 0x73, 0x79],
  [0x46, 0x69, 0x6C, 0x65, 0x20, 0x65, 0x78, 0x69, 0x73, 0x74, 0x73],
  [0x43, 0x72, 0x6F, 0x73, 0x73, 0x2D, 0x64, 0x65, 0x76, 0x69, 0x63, 0x65, 0x20, 0x6C, 0x69, 0x6E, 0x6B],
  [0x4E, 0x6F, 0x20, 0x73, 0x75, 0x63, 0x68, 0x20, 0x64, 0x65, 0x76, 0x69, 0x63, 0x65],
  [0x4E, 0x6F, 0x74, 0x20, 0x61, 0x20, 0x64, 0x69, 0x72, 0x65, 0x63, 0x74, 0x6F, 0x72, 0x79],
  [0x49, 0x73, 0x20, 0x61, 0x20, 0x64, 0x69, 0x72, 0x65, 0x63, 0x74, 0x6F, 0x72, 0x79],
  [0x49, 0x6E, 0x76, 0x61, 0x6C, 0x69, 0x64, 0x20, 0x61, 0x72, 0x67, 0x75, 0x6D, 0x65, 0x6E, 0x74],
  [0x46, 0x69, 0x6C, 0x65, 0x20, 0x74, 0x61, 0x62, 0x6C, 0x65, 0x20, 0x6F, 0x76, 0x65, 0x72, 0x66, 0x6C, 0x6F, 0x77],
  [0x54, 0x6F, 0x6F, 0x20, 0x6D, 0x61, 0x6E, 0x79, 0x20, 0x6F, 0x70, 0x65, 0x6E, 0x20, 0x66, 0x69, 0x6C, 0x65, 0x73],
  [0x4E, 0x6F, 0x74, 0x20, 0x61, 0x20, 0x74, 0x79, 0x70, 0x65, 0x77, 0x72, 0x69, 0x74, 0x65, 0x72],
  [0x54, 0x65, 0x78, 0x74, 0x20, 0x66, 0x69, 0x6C, 0x65, 0x20, 0x62, 0x75, 0x73, 0x79],
  [0x46, 0x69, 0x6C, 0x65, 0x20, 0x74, 0x6F, 0x6F, 0x20, 0x6C, 0x61, 0x72, 0x67, 0x65],
  [0x4E, 0x6F, 0x20, 0x73, 0x70, 0x61, 0x63, 0x65, 0x20, 0x6C, 0x65, 0x66, 0x74, 0x20, 0x6F, 0x6E, 0x20, 0x64, 0x65, 0x76, 0x69, 0x63, 0x65],
  [0x49, 0x6C, 0x6C, 0x65, 0x67, 0x61, 0x6C, 0x20, 0x73, 0x65, 0x65, 0x6B],
  [0x52, 0x65, 0x61, 0x64, 0x2D, 0x6F, 0x6E, 0x6C, 0x79, 0x20, 0x66, 0x69, 0x6C, 0x65, 0x20, 0x73, 0x79, 0x73, 0x74, 0x65, 0x6D],
  [0x54, 0x6F, 0x6F, 0x20, 0x6D, 0x61, 0x6E, 0x79, 0x20, 0x6C, 0x69, 0x6E, 0x6B, 0x73],
  [0x42, 0x72, 0x6F, 0x6B, 0x65, 0x6E, 0x20, 0x70, 0x69, 0x70, 0x65],
  [0x4D, 0x61, 0x74, 0x68, 0x20, 0x61, 0x72, 0x67, 0x75, 0x6D, 0x65, 0x6E, 0x74, 0x20, 0x6F, 0x75, 0x74, 0x20, 0x6F, 0x66, 0x20, 0x64, 0x6F, 0x6D, 0x61, 0x69, 0x6E, 0x20, 0x6F, 0x66, 0x20, 0x66, 0x75, 0x6E, 0x63],
  [0x4D, 0x61, 0x74, 0x68, 0x20, 0x72, 0x65, 0x73, 0x75, 0x6C, 0x74, 0x20, 0x6E, 0x6F, 0x74, 0x20, 0x72, 0x65, 0x70, 0x72, 0x65, 0x73, 0x65, 0x6E, 0x74, 0x61, 0x62, 0x6C, 0x65],
  [0x52, 0x65, 0x73, 0x6F, 0x75, 0x72, 0x63, 0x65, 0x20, 0x64, 0x65, 0x61, 0x64, 0x6C, 0x6F, 0x63, 0x6B, 0x20, 0x77, 0x6F, 0x75, 0x6C, 0x64, 0x20, 0x6F, 0x63, 0x63, 0x75, 0x72],
  [0x46, 0x69, 0x6C, 0x65, 0x20, 0x6E, 0x61, 0x6D, 0x65, 0x20, 0x74, 0x6F, 0x6F, 0x20, 0x6C, 0x6F, 0x6E, 0x67],
  [0x4E, 0x6F, 0x20, 0x72, 0x65, 0x63, 0x6F, 0x72, 0x64, 0x20, 0x6C, 0x6F, 0x63, 0x6B, 0x73, 0x20, 0x61, 0x76, 0x61, 0x69, 0x6C, 0x61, 0x62, 0x6C, 0x65],
  [0x46, 0x75, 0x6E, 0x63, 0x74, 0x69, 0x6F, 0x6E, 0x20, 0x6E, 0x6F, 0x74, 0x20, 0x69, 0x6D, 0x70, 0x6C, 0x65, 0x6D, 0x65, 0x6E, 0x74, 0x65, 0x64],
  [0x44, 0x69, 0x72, 0x65, 0x63, 0x74, 0x6F, 0x72, 0x79, 0x20, 0x6E, 0x6F, 0x74, 0x20, 0x65, 0x6D, 0x70, 0x74, 0x79],
  [0x54, 0x6F, 0x6F, 0x20, 0x6D, 0x61, 0x6E, 0x79, 0x20, 0x73, 0x79, 0x6D, 0x62, 0x6F, 0x6C, 0x69, 0x63, 0x20, 0x6C, 0x69, 0x6E, 0x6B, 0x73, 0x20, 0x65, 0x6E, 0x63, 0x6F, 0x75, 0x6E, 0x74, 0x65, 0x72, 0x65, 0x64],
  [0x4F, 0x70, 0x65, 0x72, 0x61, 0x74, 0x69, 0x6F, 0x6E, 0x20, 0x77, 0x6F, 0x75, 0x6C, 0x64, 0x20, 0x62, 0x6C, 0x6F, 0x63, 0x6B],
  [0x4E, 0x6F, 0x20, 0x6D, 0x65, 0x73, 0x73, 0x61, 0x67, 0x65, 0x20, 0x6F, 0x66, 0x20, 0x64, 0x65, 0x73, 0x69, 0x72, 0x65, 0x64, 0x20, 0x74, 0x79, 0x70, 0x65],
  [0x49, 0x64, 0x65, 0x6E, 0x74, 0x69, 0x66, 0x69, 0x65, 0x72, 0x20, 0x72, 0x65, 0x6D, 0x6F, 0x76, 0x65, 0x64],
  [0x43, 0x68, 0x61, 0x6E, 0x6E, 0x65, 0x6C, 0x20, 0x6E, 0x75, 0x6D, 0x62, 0x65, 0x72, 0x20, 0x6F, 0x75, 0x74, 0x20, 0x6F, 0x66, 0x20, 0x72, 0x61, 0x6E, 0x67, 0x65],
  [0x4C, 0x65, 0x76, 0x65, 0x6C, 0x20, 0x32, 0x20, 0x6E, 0x6F, 0x74, 0x20, 0x73, 0x79, 0x6E, 0x63, 0x68, 0x72, 0x6F, 0x6E, 0x69, 0x7A, 0x65, 0x64],
  [0x4C, 0x65, 0x76, 0x65, 0x6C, 0x20, 0x33, 0x20, 0x68, 0x61, 0x6C, 0x74, 0x65, 0x64],
  [0x4C, 0x65, 0x76, 0x65, 0x6C, 0x20, 0x33, 0x20, 0x72, 0x65, 0x73, 0x65, 0x74],
  [0x4C, 0x69, 0x6E, 0x6B, 0x20, 0x6E, 0x75, 0x6D, 0x62, 0x65, 0x72, 0x20, 0x6F, 0x75, 0x74, 0x20, 0x6F, 0x66, 0x20, 0x72, 0x61, 0x6E, 0x67, 0x65],
  [0x50, 0x72, 0x6F, 0x74, 0x6F, 0x63, 0x6F, 0x6C, 0x20, 0x64, 0x72, 0x69, 0x76, 0x65, 0x72, 0x20, 0x6E, 0x6F, 0x74, 0x20, 0x61, 0x74, 0x74, 0x61, 0x63, 0x68, 0x65, 0x64],
  [0x4E, 0x6F, 0x20, 0x43, 0x53, 0x49, 0x20, 0x73, 0x74, 0x72, 0x75, 0x63, 0x74, 0x75, 0x72, 0x65, 0x20, 0x61, 0x76, 0x61, 0x69, 0x6C, 0x61, 0x62, 0x6C, 0x65],
  [0x4C, 0x65, 0x76, 0x65, 0x6C, 0x20, 0x32, 0x20, 0x68, 0x61, 0x6C, 0x74, 0x65, 0x64],
  [0x49, 0x6E, 0x76, 0x61, 0x6C, 0x69, 0x64, 0x20, 0x65, 0x78, 0x63, 0x68, 0x61, 0x6E, 0x67, 0x65],
  [0x49, 0x6E, 0x76, 0x61, 0x6C, 0x69, 0x64, 0x20, 0x72, 0x65, 0x71, 0x75, 0x65, 0x73, 0x74, 0x20, 0x64, 0x65, 0x73, 0x63, 0x72, 0x69, 0x70, 0x74, 0x6F, 0x72],
  [0x45, 0x78, 0x63, 0x68, 0x61, 0x6E, 0x67, 0x65, 0x20, 0x66, 0x75, 0x6C, 0x6C],
  [0x4E, 0x6F, 0x20, 0x61, 0x6E, 0x6F, 0x64, 0x65],
  [0x49, 0x6E, 0x76, 0x61, 0x6C, 0x69, 0x64, 0x20, 0x72, 0x65, 0x71, 0x75, 0x65, 0x73, 0x74, 0x20, 0x63, 0x6F, 0x64, 0x65],
  [0x49, 0x6E, 0x76, 0x61, 0x6C, 0x69, 0x64, 0x20, 0x73, 0x6C, 0x6F, 0x74],
  [0x52, 0x65, 0x73, 0x6F, 0x75, 0x72, 0x63, 0x65, 0x20, 0x64, 0x65, 0x61, 0x64, 0x6C, 0x6F, 0x63, 0x6B, 0x20, 0x77, 0x6F, 0x75, 0x6C, 0x64, 0x20, 0x6F, 0x63, 0x63, 0x75, 0x72],
  [0x42, 0x61, 0x64, 0x20, 0x66, 0x6F, 0x6E, 0x74, 0x20, 0x66, 0x69, 0x6C, 0x65, 0x20, 0x66, 0x6F, 0x72, 0x6D, 0x61, 0x74],
  [0x44, 0x65, 0x76, 0x69, 0x63, 0x65, 0x20, 0x6E, 0x6F, 0x74, 0x20, 0x61, 0x20, 0x73, 0x74, 0x72, 0x65, 0x61, 0x6D],
  [0x4E, 0x6F, 0x20, 0x64, 0x61, 0x74, 0x61, 0x20, 0x61, 0x76, 0x61, 0x69, 0x6C, 0x61, 0x62, 0x6C, 0x65],
  [0x54, 0x69, 0x6D, 0x65, 0x72, 0x20, 0x65, 0x78, 0x70, 0x69, 0x72, 0x65, 0x64],
  [0x4F, 0x75, 0x74, 0x20, 0x6F, 0x66, 0x20, 0x73, 0x74, 0x72, 0x65, 0x61, 0x6D, 0x73, 0x20, 0x72, 0x65, 0x73, 0x6F, 0x75, 0x72, 0x63, 0x65, 0x73],
  [0x4D, 0x61, 0x63, 0x68, 0x69, 0x6E, 0x65, 0x20, 0x69, 0x73, 0x20, 0x6E, 0x6F, 0x74, 0x20, 0x6F, 0x6E, 0x20, 0x74, 0x68, 0x65, 0x20, 0x6E, 0x65, 0x74, 0x77, 0x6F, 0x72, 0x6B],
  [0x50, 0x61, 0x63, 0x6B, 0x61, 0x67, 0x65, 0x20, 0x6E, 0x6F, 0x74, 0x20, 0x69, 0x6E, 0x73, 0x74, 0x61, 0x6C, 0x6C, 0x65, 0x64],
  [0x4F, 0x62, 0x6A, 0x65, 0x63, 0x74, 0x20, 0x69, 0x73, 0x20, 0x72, 0x65, 0x6D, 0x6F, 0x74, 0x65],
  [0x4C, 0x69, 0x6E, 0x6B, 0x20, 0x68, 0x61, 0x73, 0x20, 0x62, 0x65, 0x65, 0x6E, 0x20, 0x73, 0x65, 0x76, 0x65, 0x72, 0x65, 0x64],
  [0x41, 0x64, 0x76, 0x65, 0x72, 0x74, 0x69, 0x73, 0x65, 0x20, 0x65, 0x72, 0x72, 0x6F, 0x72],
  [0x53, 0x72, 0x6D, 0x6F, 0x75, 0x6E, 0x74, 0x20, 0x65, 0x72, 0x72, 0x6F, 0x72],
  [0x43, 0x6F, 0x6D, 0x6D, 0x75, 0x6E, 0x69, 0x63, 0x61, 0x74, 0x69, 0x6F, 0x6E, 0x20, 0x65, 0x72, 0x72, 0x6F, 0x72, 0x20, 0x6F, 0x6E, 0x20, 0x73, 0x65, 0x6E, 0x64],
  [0x50, 0x72, 0x6F, 0x74, 0x6F, 0x63, 0x6F, 0x6C, 0x20, 0x65, 0x72, 0x72, 0x6F, 0x72],
  [0x4D, 0x75, 0x6C, 0x74, 0x69, 0x68, 0x6F, 0x70, 0x20, 0x61, 0x74, 0x74, 0x65, 0x6D, 0x70, 0x74, 0x65, 0x64],
  [0x52, 0x46, 0x53, 0x20, 0x73, 0x70, 0x65, 0x63, 0x69, 0x66, 0x69, 0x63, 0x20, 0x65, 0x72, 0x72, 0x6F, 0x72],
  [0x4E, 0x6F, 0x74, 0x20, 0x61, 0x20, 0x64, 0x61, 0x74, 0x61, 0x20, 0x6D, 0x65, 0x73, 0x73, 0x61, 0x67, 0x65],
  [0x56, 0x61, 0x6C, 0x75, 0x65, 0x20, 0x74, 0x6F, 0x6F, 0x20, 0x6C, 0x61, 0x72, 0x67, 0x65, 0x20, 0x66, 0x6F, 0x72, 0x20, 0x64, 0x65, 0x66, 0x69, 0x6E, 0x65, 0x64, 0x20, 0x64, 0x61, 0x74, 0x61, 0x20, 0x74, 0x79, 0x70, 0x65],
  [0x4E, 0x61, 0x6D, 0x65, 0x20, 0x6E, 0x6F, 0x74, 0x20, 0x75, 0x6E, 0x69, 0x71, 0x75, 0x65, 0x20, 0x6F, 0x6E, 0x20, 0x6E, 0x65, 0x74, 0x77, 0x6F, 0x72, 0x6B],
  [0x46, 0x69, 0x6C, 0x65, 0x20, 0x64, 0x65, 0x73, 0x63, 0x72, 0x69, 0x70, 0x74, 0x6F, 0x72, 0x20, 0x69, 0x6E, 0x20, 0x62, 0x61, 0x64, 0x20, 0x73, 0x74, 0x61, 0x74, 0x65],
  [0x52, 0x65, 0x6D, 0x6F, 0x74, 0x65, 0x20, 0x61, 0x64, 0x64, 0x72, 0x65, 0x73, 0x73, 0x20, 0x63, 0x68, 0x61, 0x6E, 0x67, 0x65, 0x64],
  [0x43, 0x61, 0x6E, 0x20, 0x6E, 0x6F, 0x74, 0x20, 0x61, 0x63, 0x63, 0x65, 0x73, 0x73, 0x20, 0x61, 0x20, 0x6E, 0x65, 0x65, 0x64, 0x65, 0x64, 0x20, 0x73, 0x68, 0x61, 0x72, 0x65, 0x64, 0x20, 0x6C, 0x69, 0x62, 0x72, 0x61, 0x72, 0x79],
  [0x41, 0x63, 0x63, 0x65, 0x73, 0x73, 0x69, 0x6E, 0x67, 0x20, 0x61, 0x20, 0x63, 0x6F, 0x72, 0x72, 0x75, 0x70, 0x74, 0x65, 0x64, 0x20, 0x73, 0x68, 0x61, 0x72, 0x65, 0x64, 0x20, 0x6C, 0x69, 0x62, 0x72, 0x61, 0x72, 0x79],
  [0x2E, 0x6C, 0x69, 0x62, 0x20, 0x73, 0x65, 0x63, 0x74, 0x69, 0x6F, 0x6E, 0x20, 0x69, 0x6E, 0x20, 0x61, 0x2E, 0x6F, 0x75, 0x74, 0x20, 0x63, 0x6F, 0x72, 0x72, 0x75, 0x70, 0x74, 0x65, 0x64],
  [0x41, 0x74, 0x74, 0x65, 0x6D, 0x70, 0x74, 0x69, 0x6E, 0x67, 0x20, 0x74, 0x6F, 0x20, 0x6C, 0x69, 0x6E, 0x6B, 0x20, 0x69, 0x6E, 0x20, 0x74, 0x6F, 0x6F, 0x20, 0x6D, 0x61, 0x6E, 0x79, 0x20, 0x73, 0x68, 0x61, 0x72, 0x65, 0x64, 0x20, 0x6C, 0x69, 0x62, 0x72, 0x61, 0x72, 0x69, 0x65, 0x73],
  [0x43, 0x61, 0x6E, 0x6E, 0x6F, 0x74, 0x20, 0x65, 0x78, 0x65, 0x63, 0x20, 0x61, 0x20, 0x73, 0x68, 0x61, 0x72, 0x65, 0x64, 0x20, 0x6C, 0x69, 0x62, 0x72, 0x61, 0x72, 0x79, 0x20, 0x64, 0x69, 0x72, 0x65, 0x63, 0x74, 0x6C, 0x79],
  [0x49, 0x6C, 0x6C, 0x65, 0x67, 0x61, 0x6C, 0x20, 0x62, 0x79, 0x74, 0x65, 0x20, 0x73, 0x65, 0x71, 0x75, 0x65, 0x6E, 0x63, 0x65],
  [0x49, 0x6E, 0x74, 0x65, 0x72, 0x72, 0x75, 0x70, 0x74, 0x65, 0x64, 0x20, 0x73, 0x79, 0x73, 0x74, 0x65, 0x6D, 0x20, 0x63, 0x61, 0x6C, 0x6C, 0x20, 0x73, 0x68, 0x6F, 0x75, 0x6C, 0x64, 0x20, 0x62, 0x65, 0x20, 0x72, 0x65, 0x73, 0x74, 0x61, 0x72, 0x74, 0x65, 0x64],
  [0x53, 0x74, 0x72, 0x65, 0x61, 0x6D, 0x73, 0x20, 0x70, 0x69, 0x70, 0x65, 0x20, 0x65, 0x72, 0x72, 0x6F, 0x72],
  [0x54, 0x6F, 0x6F, 0x20, 0x6D, 0x61, 0x6E, 0x79, 0x20, 0x75, 0x73, 0x65, 0x72, 0x73],
  [0x53, 0x6F, 0x63, 0x6B, 0x65, 0x74, 0x20, 0x6F, 0x70, 0x65, 0x72, 0x61, 0x74, 0x69, 0x6F, 0x6E, 0x20, 0x6F, 0x6E, 0x20, 0x6E, 0x6F, 0x6E, 0x2D, 0x73, 0x6F, 0x63, 0x6B, 0x65, 0x74],
  [0x44, 0x65, 0x73, 0x74, 0x69, 0x6E, 0x61, 0x74, 0x69, 0x6F, 0x6E, 0x20, 0x61, 0x64, 0x64, 0x72, 0x65, 0x73, 0x73, 0x20, 0x72, 0x65, 0x71, 0x75, 0x69, 0x72, 0x65, 0x64],
  [0x4D, 0x65, 0x73, 0x73, 0x61, 0x67, 0x65, 0x20, 0x74, 0x6F, 0x6F, 0x20, 0x6C, 0x6F, 0x6E, 0x67],
  [0x50, 0x72, 0x6F, 0x74, 0x6F, 0x63, 0x6F, 0x6C, 0x20, 0x77, 0x72, 0x6F, 0x6E, 0x67, 0x20, 0x74, 0x79, 0x70, 0x65, 0x20, 0x66, 0x6F, 0x72, 0x20, 0x73, 0x6F, 0x63, 0x6B, 0x65, 0x74],
  [0x50, 0x72, 0x6F, 0x74, 0x6F, 0x63, 0x6F, 0x6C, 0x20, 0x6E, 0x6F, 0x74, 0x20, 0x61, 0x76, 0x61, 0x69, 0x6C, 0x61, 0x62, 0x6C, 0x65],
  [0x50, 0x72, 0x6F, 0x74, 0x6F, 0x63, 0x6F, 0x6C, 0x20, 0x6E, 0x6F, 0x74, 0x20, 0x73, 0x75, 0x70, 0x70, 0x6F, 0x72, 0x74, 0x65, 0x64],
  [0x53, 0x6F, 0x63, 0x6B, 0x65, 0x74, 0x20, 0x74, 0x79, 0x70, 0x65, 0x20, 0x6E, 0x6F, 0x74, 0x20, 0x73, 0x75, 0x70, 0x70, 0x6F, 0x72, 0x74, 0x65, 0x64],
  [0x4F, 0x70, 0x65, 0x72, 0x61, 0x74, 0x69, 0x6F, 0x6E, 0x20, 0x6E, 0x6F, 0x74, 0x20, 0x73, 0x75, 0x70, 0x70, 0x6F, 0x72, 0x74, 0x65, 0x64, 0x20, 0x6F, 0x6E, 0x20, 0x74, 0x72, 0x61, 0x6E, 0x73, 0x70, 0x6F, 0x72, 0x74, 0x20, 0x65, 0x6E, 0x64, 0x70, 0x6F, 0x69, 0x6E, 0x74],
  [0x50, 0x72, 0x6F, 0x74, 0x6F, 0x63, 0x6F, 0x6C, 0x20, 0x66, 0x61, 0x6D, 0x69, 0x6C, 0x79, 0x20, 0x6E, 0x6F, 0x74, 0x20, 0x73, 0x75, 0x70, 0x70, 0x6F, 0x72, 0x74, 0x65, 0x64],
  [0x41, 0x64, 0x64, 0x72, 0x65, 0x73, 0x73, 0x20, 0x66, 0x61, 0x6D, 0x69, 0x6C, 0x79, 0x20, 0x6E, 0x6F, 0x74, 0x20, 0x73, 0x75, 0x70, 0x70, 0x6F, 0x72, 0x74, 0x65, 0x64, 0x20, 0x62, 0x79, 0x20, 0x70, 0x72, 0x6F, 0x74, 0x6F, 0x63, 0x6F, 0x6C],
  [0x41, 0x64, 0x64, 0x72, 0x65, 0x73, 0x73, 0x20, 0x61, 0x6C, 0x72, 0x65, 0x61, 0x64, 0x79, 0x20, 0x69, 0x6E, 0x20, 0x75, 0x73, 0x65],
  [0x43, 0x61, 0x6E, 0x6E, 0x6F, 0x74, 0x20, 0x61, 0x73, 0x73, 0x69, 0x67, 0x6E, 0x20, 0x72, 0x65, 0x71, 0x75, 0x65, 0x73, 0x74, 0x65, 0x64, 0x20, 0x61, 0x64, 0x64, 0x72, 0x65, 0x73, 0x73],
  [0x4E, 0x65, 0x74, 0x77, 0x6F, 0x72, 0x6B, 0x20, 0x69, 0x73, 0x20, 0x64, 0x6F, 0x77, 0x6E],
  [0x4E, 0x65, 0x74, 0x77, 0x6F, 0x72, 0x6B, 0x20, 0x69, 0x73, 0x20, 0x75, 0x6E, 0x72, 0x65, 0x61, 0x63, 0x68, 0x61, 0x62, 0x6C, 0x65],
  [0x4E, 0x65, 0x74, 0x77, 0x6F, 0x72, 0x6B, 0x20, 0x64, 0x72, 0x6F, 0x70, 0x70, 0x65, 0x64, 0x20, 0x63, 0x6F, 0x6E, 0x6E, 0x65, 0x63, 0x74, 0x69, 0x6F, 0x6E, 0x20, 0x62, 0x65, 0x63, 0x61, 0x75, 0x73, 0x65, 0x20, 0x6F, 0x66, 0x20, 0x72, 0x65, 0x73, 0x65, 0x74],
  [0x53, 0x6F, 0x66, 0x74, 0x77, 0x61, 0x72, 0x65, 0x20, 0x63, 0x61, 0x75, 0x73, 0x65, 0x64, 0x20, 0x63, 0x6F, 0x6E, 0x6E, 0x65, 0x63, 0x74, 0x69, 0x6F, 0x6E, 0x20, 0x61, 0x62, 0x6F, 0x72, 0x74],
  [0x43, 0x6F, 0x6E, 0x6E, 0x65, 0x63, 0x74, 0x69, 0x6F, 0x6E, 0x20, 0x72, 0x65, 0x73, 0x65, 0x74, 0x20, 0x62, 0x79, 0x20, 0x70, 0x65, 0x65, 0x72],
  [0x4E, 0x6F, 0x20, 0x62, 0x75, 0x66, 0x66, 0x65, 0x72, 0x20, 0x73, 0x70, 0x61, 0x63, 0x65, 0x20, 0x61, 0x76, 0x61, 0x69, 0x6C, 0x61, 0x62, 0x6C, 0x65],
  [0x54, 0x72, 0x61, 0x6E, 0x73, 0x70, 0x6F, 0x72, 0x74, 0x20, 0x65, 0x6E, 0x64, 0x70, 0x6F, 0x69, 0x6E, 0x74, 0x20, 0x69, 0x73, 0x20, 0x61, 0x6C, 0x72, 0x65, 0x61, 0x64, 0x79, 0x20, 0x63, 0x6F, 0x6E, 0x6E, 0x65, 0x63, 0x74, 0x65, 0x64],
  [0x54, 0x72, 0x61, 0x6E, 0x73, 0x70, 0x6F, 0x72, 0x74, 0x20, 0x65, 0x6E, 0x64, 0x70, 0x6F, 0x69, 0x6E, 0x74, 0x20, 0x69, 0x73, 0x20, 0x6E, 0x6F, 0x74, 0x20, 0x63, 0x6F, 0x6E, 0x6E, 0x65, 0x63, 0x74, 0x65, 0x64],
  [0x43, 0x61, 0x6E, 0x6E, 0x6F, 0x74, 0x20, 0x73, 0x65, 0x6E, 0x64, 0x20, 0x61, 0x66, 0x74, 0x65, 0x72, 0x20, 0x74, 0x72, 0x61, 0x6E, 0x73, 0x70, 0x6F, 0x72, 0x74, 0x20, 0x65, 0x6E, 0x64, 0x70, 0x6F, 0x69, 0x6E, 0x74, 0x20, 0x73, 0x68, 0x75, 0x74, 0x64, 0x6F, 0x77, 0x6E],
  [0x54, 0x6F, 0x6F, 0x20, 0x6D, 0x61, 0x6E, 0x79, 0x20, 0x72, 0x65, 0x66, 0x65, 0x72, 0x65, 0x6E, 0x63, 0x65, 0x73, 0x3A, 0x20, 0x63, 0x61, 0x6E, 0x6E, 0x6F, 0x74, 0x20, 0x73, 0x70, 0x6C, 0x69, 0x63, 0x65],
  [0x43, 0x6F, 0x6E, 0x6E, 0x65, 0x63, 0x74, 0x69, 0x6F, 0x6E, 0x20, 0x74, 0x69, 0x6D, 0x65, 0x64, 0x20, 0x6F, 0x75, 0x74],
  [0x43, 0x6F, 0x6E, 0x6E, 0x65, 0x63, 0x74, 0x69, 0x6F, 0x6E, 0x20, 0x72, 0x65, 0x66, 0x75, 0x73, 0x65, 0x64],
  [0x48, 0x6F, 0x73, 0x74, 0x20, 0x69, 0x73, 0x20, 0x64, 0x6F, 0x77, 0x6E],
  [0x4E, 0x6F, 0x20, 0x72, 0x6F, 0x75, 0x74, 0x65, 0x20, 0x74, 0x6F, 0x20, 0x68, 0x6F, 0x73, 0x74],
  [0x4F, 0x70, 0x65, 0x72, 0x61, 0x74, 0x69, 0x6F, 0x6E, 0x20, 0x61, 0x6C, 0x72, 0x65, 0x61, 0x64, 0x79, 0x20, 0x69, 0x6E, 0x20, 0x70, 0x72, 0x6F, 0x67, 0x72, 0x65, 0x73, 0x73],
  [0x4F, 0x70, 0x65, 0x72, 0x61, 0x74, 0x69, 0x6F, 0x6E, 0x20, 0x6E, 0x6F, 0x77, 0x20, 0x69, 0x6E, 0x20, 0x70, 0x72, 0x6F, 0x67, 0x72, 0x65, 0x73, 0x73],
  [0x53, 0x74, 0x61, 0x6C, 0x65, 0x20, 0x4E, 0x46, 0x53, 0x20, 0x66, 0x69, 0x6C, 0x65, 0x20, 0x68, 0x61, 0x6E, 0x64, 0x6C, 0x65],
  [0x53, 0x74, 0x72, 0x75, 0x63, 0x74, 0x75, 0x72, 0x65, 0x20, 0x6E, 0x65, 0x65, 0x64, 0x73, 0x20, 0x63, 0x6C, 0x65, 0x61, 0x6E, 0x69, 0x6E, 0x67],
  [0x4E, 0x6F, 0x74, 0x20, 0x61, 0x20, 0x58, 0x45, 0x4E, 0x49, 0x58, 0x20, 0x6E, 0x61, 0x6D, 0x65, 0x64, 0x20, 0x74, 0x79, 0x70, 0x65, 0x20, 0x66, 0x69, 0x6C, 0x65],
  [0x4E, 0x6F, 0x20, 0x58, 0x45, 0x4E, 0x49, 0x58, 0x20, 0x73, 0x65, 0x6D, 0x61, 0x70, 0x68, 0x6F, 0x72, 0x65, 0x73, 0x20, 0x61, 0x76, 0x61, 0x69, 0x6C, 0x61, 0x62, 0x6C, 0x65],
  [0x49, 0x73, 0x20, 0x61, 0x20, 0x6E, 0x61, 0x6D, 0x65, 0x64, 0x20, 0x74, 0x79, 0x70, 0x65, 0x20, 0x66, 0x69, 0x6C, 0x65],
  [0x52, 0x65, 0x6D, 0x6F, 0x74, 0x65, 0x20, 0x49, 0x2F, 0x4F, 0x20, 0x65, 0x72, 0x72, 0x6F, 0x72],
  [0x51, 0x75, 0x6F, 0x74, 0x61, 0x20, 0x65, 0x78, 0x63, 0x65, 0x65, 0x64, 0x65, 0x64],
  [0x4E, 0x6F, 0x20, 0x6D, 0x65, 0x64, 0x69, 0x75, 0x6D, 0x20, 0x66, 0x6F, 0x75, 0x6E, 0x64],
  [0x57, 0x72, 0x6F, 0x6E, 0x67, 0x20, 0x6D, 0x65, 0x64, 0x69, 0x75, 0x6D, 0x20, 0x74, 0x79, 0x70, 0x65],
  [0x4F, 0x70, 0x65, 0x72, 0x61, 0x74, 0x69, 0x6F, 0x6E, 0x20, 0x43, 0x61, 0x6E, 0x63, 0x65, 0x6C, 0x65, 0x64],
  [0x52, 0x65, 0x71, 0x75, 0x69, 0x72, 0x65, 0x64, 0x20, 0x6B, 0x65, 0x79, 0x20, 0x6E, 0x6F, 0x74, 0x20, 0x61, 0x76, 0x61, 0x69, 0x6C, 0x61, 0x62, 0x6C, 0x65],
  [0x4B, 0x65, 0x79, 0x20, 0x68, 0x61, 0x73, 0x20, 0x65, 0x78, 0x70, 0x69, 0x72, 0x65, 0x64],
  [0x4B, 0x65, 0x79, 0x20, 0x68, 0x61, 0x73, 0x20, 0x62, 0x65, 0x65, 0x6E, 0x20, 0x72, 0x65, 0x76, 0x6F, 0x6B, 0x65, 0x64],
  [0x4B, 0x65, 0x79, 0x20, 0x77, 0x61, 0x73, 0x20, 0x72, 0x65, 0x6A, 0x65, 0x63, 0x74, 0x65, 0x64, 0x20, 0x62, 0x79, 0x20, 0x73, 0x65, 0x72, 0x76, 0x69, 0x63, 0x65],
  [0x4F, 0x77, 0x6E, 0x65, 0x72, 0x20, 0x64, 0x69, 0x65, 0x64],
  [0x53, 0x74, 0x61, 0x74, 0x65, 0x20, 0x6E, 0x6F, 0x74, 0x20, 0x72, 0x65, 0x63, 0x6F, 0x76, 0x65, 0x72, 0x61, 0x62, 0x6C, 0x65]]

/-- `SIGNAL_STRINGS` (`src/header/signal/mod.rs:810-843`), without the zero at the end of each. -/
def signalStrings : List (List UInt8) := [
  [0x55, 0x6E, 0x6B, 0x6E, 0x6F, 0x77, 0x6E, 0x20, 0x73, 0x69, 0x67, 0x6E, 0x61, 0x6C],
  [0x48, 0x61, 0x6E, 0x67, 0x75, 0x70],
  [0x49, 0x6E, 0x74, 0x65, 0x72, 0x72, 0x75, 0x70, 0x74],
  [0x51, 0x75, 0x69, 0x74],
  [0x49, 0x6C, 0x6C, 0x65, 0x67, 0x61, 0x6C, 0x20, 0x69, 0x6E, 0x73, 0x74, 0x72, 0x75, 0x63, 0x74, 0x69, 0x6F, 0x6E],
  [0x54, 0x72, 0x61, 0x63, 0x65, 0x2F, 0x62, 0x72, 0x65, 0x61, 0x6B, 0x70, 0x6F, 0x69, 0x6E, 0x74, 0x20, 0x74, 0x72, 0x61, 0x70],
  [0x41, 0x62, 0x6F, 0x72, 0x74, 0x65, 0x64],
  [0x42, 0x75, 0x73, 0x20, 0x65, 0x72, 0x72, 0x6F, 0x72],
  [0x41, 0x72, 0x69, 0x74, 0x68, 0x6D, 0x65, 0x74, 0x69, 0x63, 0x20, 0x65, 0x78, 0x63, 0x65, 0x70, 0x74, 0x69, 0x6F, 0x6E],
  [0x4B, 0x69, 0x6C, 0x6C, 0x65, 0x64],
  [0x55, 0x73, 0x65, 0x72, 0x20, 0x64, 0x65, 0x66, 0x69, 0x6E, 0x65, 0x64, 0x20, 0x73, 0x69, 0x67, 0x6E, 0x61, 0x6C, 0x20, 0x31],
  [0x53, 0x65, 0x67, 0x6D, 0x65, 0x6E, 0x74, 0x61, 0x74, 0x69, 0x6F, 0x6E, 0x20, 0x66, 0x61, 0x75, 0x6C, 0x74],
  [0x55, 0x73, 0x65, 0x72, 0x20, 0x64, 0x65, 0x66, 0x69, 0x6E, 0x65, 0x64, 0x20, 0x73, 0x69, 0x67, 0x6E, 0x61, 0x6C, 0x20, 0x32],
  [0x42, 0x72, 0x6F, 0x6B, 0x65, 0x6E, 0x20, 0x70, 0x69, 0x70, 0x65],
  [0x41, 0x6C, 0x61, 0x72, 0x6D, 0x20, 0x63, 0x6C, 0x6F, 0x63, 0x6B],
  [0x54, 0x65, 0x72, 0x6D, 0x69, 0x6E, 0x61, 0x74, 0x65, 0x64],
  [0x53, 0x74, 0x61, 0x63, 0x6B, 0x20, 0x66, 0x61, 0x75, 0x6C, 0x74],
  [0x43, 0x68, 0x69, 0x6C, 0x64, 0x20, 0x70, 0x72, 0x6F, 0x63, 0x65, 0x73, 0x73, 0x20, 0x73, 0x74, 0x61, 0x74, 0x75, 0x73],
  [0x43, 0x6F, 0x6E, 0x74, 0x69, 0x6E, 0x75, 0x65, 0x64],
  [0x53, 0x74, 0x6F, 0x70, 0x70, 0x65, 0x64, 0x20, 0x28, 0x73, 0x69, 0x67, 0x6E, 0x61, 0x6C, 0x29],
  [0x53, 0x74, 0x6F, 0x70, 0x70, 0x65, 0x64],
  [0x53, 0x74, 0x6F, 0x70, 0x70, 0x65, 0x64, 0x20, 0x28, 0x74, 0x74, 0x79, 0x20, 0x69, 0x6E, 0x70, 0x75, 0x74, 0x29],
  [0x53, 0x74, 0x6F, 0x70, 0x70, 0x65, 0x64, 0x20, 0x28, 0x74, 0x74, 0x79, 0x20, 0x6F, 0x75, 0x74, 0x70, 0x75, 0x74, 0x29],
  [0x55, 0x72, 0x67, 0x65, 0x6E, 0x74, 0x20, 0x49, 0x2F, 0x4F, 0x20, 0x63, 0x6F, 0x6E, 0x64, 0x69, 0x74, 0x69, 0x6F, 0x6E],
  [0x43, 0x50, 0x55, 0x20, 0x74, 0x69, 0x6D, 0x65, 0x20, 0x6C, 0x69, 0x6D, 0x69, 0x74, 0x20, 0x65, 0x78, 0x63, 0x65, 0x65, 0x64, 0x65, 0x64],
  [0x46, 0x69, 0x6C, 0x65, 0x20, 0x73, 0x69, 0x7A, 0x65, 0x20, 0x6C, 0x69, 0x6D, 0x69, 0x74, 0x20, 0x65, 0x78, 0x63, 0x65, 0x65, 0x64, 0x65, 0x64],
  [0x56, 0x69, 0x72, 0x74, 0x75, 0x61, 0x6C, 0x20, 0x74, 0x69, 0x6D, 0x65, 0x72, 0x20, 0x65, 0x78, 0x70, 0x69, 0x72, 0x65, 0x64],
  [0x50, 0x72, 0x6F, 0x66, 0x69, 0x6C, 0x69, 0x6E, 0x67, 0x20, 0x74, 0x69, 0x6D, 0x65, 0x72, 0x20, 0x65, 0x78, 0x70, 0x69, 0x72, 0x65, 0x64],
  [0x57, 0x69, 0x6E, 0x64, 0x6F, 0x77, 0x20, 0x63, 0x68, 0x61, 0x6E, 0x67, 0x65, 0x64],
  [0x49, 0x2F, 0x4F, 0x20, 0x70, 0x6F, 0x73, 0x73, 0x69, 0x62, 0x6C, 0x65],
  [0x50, 0x6F, 0x77, 0x65, 0x72, 0x20, 0x66, 0x61, 0x69, 0x6C, 0x75, 0x72, 0x65],
  [0x42, 0x61, 0x64, 0x20, 0x73, 0x79, 0x73, 0x74, 0x65, 0x6D, 0x20, 0x63, 0x61, 0x6C, 0x6C]]

end Verif.Messages
