/-!
# What the error numbers mean

The numbers of `errno.h` with what is said beside each of them in `src/header/errno/mod.rs:44-178`.
-/

namespace Verif.Messages

def meanings : List (Int32 × List UInt8) := [
  (1, [0x4F, 0x70, 0x65, 0x72, 0x61, 0x74, 0x69, 0x6F, 0x6E, 0x20, 0x6E, 0x6F, 0x74, 0x20, 0x70, 0x65, 0x72, 0x6D, 0x69, 0x74, 0x74, 0x65, 0x64]),
  (2, [0x4E, 0x6F, 0x20, 0x73, 0x75, 0x63, 0x68, 0x20, 0x66, 0x69, 0x6C, 0x65, 0x20, 0x6F, 0x72, 0x20, 0x64, 0x69, 0x72, 0x65, 0x63, 0x74, 0x6F, 0x72, 0x79]),
  (3, [0x4E, 0x6F, 0x20, 0x73, 0x75, 0x63, 0x68, 0x20, 0x70, 0x72, 0x6F, 0x63, 0x65, 0x73, 0x73]),
  (4, [0x49, 0x6E, 0x74, 0x65, 0x72, 0x72, 0x75, 0x70, 0x74, 0x65, 0x64, 0x20, 0x73, 0x79, 0x73, 0x74, 0x65, 0x6D, 0x20, 0x63, 0x61, 0x6C, 0x6C]),
  (5, [0x49, 0x2F, 0x4F, 0x20, 0x65, 0x72, 0x72, 0x6F, 0x72]),
  (6, [0x4E, 0x6F, 0x20, 0x73, 0x75, 0x63, 0x68, 0x20, 0x64, 0x65, 0x76, 0x69, 0x63, 0x65, 0x20, 0x6F, 0x72, 0x20, 0x61, 0x64, 0x64, 0x72, 0x65, 0x73, 0x73]),
  (7, [0x41, 0x72, 0x67, 0x75, 0x6D, 0x65, 0x6E, 0x74, 0x20, 0x6C, 0x69, 0x73, 0x74, 0x20, 0x74, 0x6F, 0x6F, 0x20, 0x6C, 0x6F, 0x6E, 0x67]),
  (8, [0x45, 0x78, 0x65, 0x63, 0x20, 0x66, 0x6F, 0x72, 0x6D, 0x61, 0x74, 0x20, 0x65, 0x72, 0x72, 0x6F, 0x72]),
  (9, [0x42, 0x61, 0x64, 0x20, 0x66, 0x69, 0x6C, 0x65, 0x20, 0x6E, 0x75, 0x6D, 0x62, 0x65, 0x72]),
  (10, [0x4E, 0x6F, 0x20, 0x63, 0x68, 0x69, 0x6C, 0x64, 0x20, 0x70, 0x72, 0x6F, 0x63, 0x65, 0x73, 0x73, 0x65, 0x73]),
  (11, [0x54, 0x72, 0x79, 0x20, 0x61, 0x67, 0x61, 0x69, 0x6E]),
  (12, [0x4F, 0x75, 0x74, 0x20, 0x6F, 0x66, 0x20, 0x6D, 0x65, 0x6D, 0x6F, 0x72, 0x79]),
  (13, [0x50, 0x65, 0x72, 0x6D, 0x69, 0x73, 0x73, 0x69, 0x6F, 0x6E, 0x20, 0x64, 0x65, 0x6E, 0x69, 0x65, 0x64]),
  (14, [0x42, 0x61, 0x64, 0x20, 0x61, 0x64, 0x64, 0x72, 0x65, 0x73, 0x73]),
  (15, [0x42, 0x6C, 0x6F, 0x63, 0x6B, 0x20, 0x64, 0x65, 0x76, 0x69, 0x63, 0x65, 0x20, 0x72, 0x65, 0x71, 0x75, 0x69, 0x72, 0x65, 0x64]),
  (16, [0x44, 0x65, 0x76, 0x69, 0x63, 0x65, 0x20, 0x6F, 0x72, 0x20, 0x72, 0x65, 0x73, 0x6F, 0x75, 0x72, 0x63, 0x65, 0x20, 0x62, 0x75, 0x73, 0x79]),
  (17, [0x46, 0x69, 0x6C, 0x65, 0x20, 0x65, 0x78, 0x69, 0x73, 0x74, 0x73]),
  (18, [0x43, 0x72, 0x6F, 0x73, 0x73, 0x2D, 0x64, 0x65, 0x76, 0x69, 0x63, 0x65, 0x20, 0x6C, 0x69, 0x6E, 0x6B]),
  (19, [0x4E, 0x6F, 0x20, 0x73, 0x75, 0x63, 0x68, 0x20, 0x64, 0x65, 0x76, 0x69, 0x63, 0x65]),
  (20, [0x4E, 0x6F, 0x74, 0x20, 0x61, 0x20, 0x64, 0x69, 0x72, 0x65, 0x63, 0x74, 0x6F, 0x72, 0x79]),
  (21, [0x49, 0x73, 0x20, 0x61, 0x20, 0x64, 0x69, 0x72, 0x65, 0x63, 0x74, 0x6F, 0x72, 0x79]),
  (22, [0x49, 0x6E, 0x76, 0x61, 0x6C, 0x69, 0x64, 0x20, 0x61, 0x72, 0x67, 0x75, 0x6D, 0x65, 0x6E, 0x74]),
  (23, [0x46, 0x69, 0x6C, 0x65, 0x20, 0x74, 0x61, 0x62, 0x6C, 0x65, 0x20, 0x6F, 0x76, 0x65, 0x72, 0x66, 0x6C, 0x6F, 0x77]),
  (24, [0x54, 0x6F, 0x6F, 0x20, 0x6D, 0x61, 0x6E, 0x79, 0x20, 0x6F, 0x70, 0x65, 0x6E, 0x20, 0x66, 0x69, 0x6C, 0x65, 0x73]),
  (25, [0x4E, 0x6F, 0x74, 0x20, 0x61, 0x20, 0x74, 0x79, 0x70, 0x65, 0x77, 0x72, 0x69, 0x74, 0x65, 0x72]),
  (26, [0x54, 0x65, 0x78, 0x74, 0x20, 0x66, 0x69, 0x6C, 0x65, 0x20, 0x62, 0x75, 0x73, 0x79]),
  (27, [0x46, 0x69, 0x6C, 0x65, 0x20, 0x74, 0x6F, 0x6F, 0x20, 0x6C, 0x61, 0x72, 0x67, 0x65]),
  (28, [0x4E, 0x6F, 0x20, 0x73, 0x70, 0x61, 0x63, 0x65, 0x20, 0x6C, 0x65, 0x66, 0x74, 0x20, 0x6F, 0x6E, 0x20, 0x64, 0x65, 0x76, 0x69, 0x63, 0x65]),
  (29, [0x49, 0x6C, 0x6C, 0x65, 0x67, 0x61, 0x6C, 0x20, 0x73, 0x65, 0x65, 0x6B]),
  (30, [0x52, 0x65, 0x61, 0x64, 0x2D, 0x6F, 0x6E, 0x6C, 0x79, 0x20, 0x66, 0x69, 0x6C, 0x65, 0x20, 0x73, 0x79, 0x73, 0x74, 0x65, 0x6D]),
  (31, [0x54, 0x6F, 0x6F, 0x20, 0x6D, 0x61, 0x6E, 0x79, 0x20, 0x6C, 0x69, 0x6E, 0x6B, 0x73]),
  (32, [0x42, 0x72, 0x6F, 0x6B, 0x65, 0x6E, 0x20, 0x70, 0x69, 0x70, 0x65]),
  (33, [0x4D, 0x61, 0x74, 0x68, 0x20, 0x61, 0x72, 0x67, 0x75, 0x6D, 0x65, 0x6E, 0x74, 0x20, 0x6F, 0x75, 0x74, 0x20, 0x6F, 0x66, 0x20, 0x64, 0x6F, 0x6D, 0x61, 0x69, 0x6E, 0x20, 0x6F, 0x66, 0x20, 0x66, 0x75, 0x6E, 0x63]),
  (34, [0x4D, 0x61, 0x74, 0x68, 0x20, 0x72, 0x65, 0x73, 0x75, 0x6C, 0x74, 0x20, 0x6E, 0x6F, 0x74, 0x20, 0x72, 0x65, 0x70, 0x72, 0x65, 0x73, 0x65, 0x6E, 0x74, 0x61, 0x62, 0x6C, 0x65]),
  (35, [0x52, 0x65, 0x73, 0x6F, 0x75, 0x72, 0x63, 0x65, 0x20, 0x64, 0x65, 0x61, 0x64, 0x6C, 0x6F, 0x63, 0x6B, 0x20, 0x77, 0x6F, 0x75, 0x6C, 0x64, 0x20, 0x6F, 0x63, 0x63, 0x75, 0x72]),
  (36, [0x46, 0x69, 0x6C, 0x65, 0x20, 0x6E, 0x61, 0x6D, 0x65, 0x20, 0x74, 0x6F, 0x6F, 0x20, 0x6C, 0x6F, 0x6E, 0x67]),
  (37, [0x4E, 0x6F, 0x20, 0x72, 0x65, 0x63, 0x6F, 0x72, 0x64, 0x20, 0x6C, 0x6F, 0x63, 0x6B, 0x73, 0x20, 0x61, 0x76, 0x61, 0x69, 0x6C, 0x61, 0x62, 0x6C, 0x65]),
  (38, [0x46, 0x75, 0x6E, 0x63, 0x74, 0x69, 0x6F, 0x6E, 0x20, 0x6E, 0x6F, 0x74, 0x20, 0x69, 0x6D, 0x70, 0x6C, 0x65, 0x6D, 0x65, 0x6E, 0x74, 0x65, 0x64]),
  (39, [0x44, 0x69, 0x72, 0x65, 0x63, 0x74, 0x6F, 0x72, 0x79, 0x20, 0x6E, 0x6F, 0x74, 0x20, 0x65, 0x6D, 0x70, 0x74, 0x79]),
  (40, [0x54, 0x6F, 0x6F, 0x20, 0x6D, 0x61, 0x6E, 0x79, 0x20, 0x73, 0x79, 0x6D, 0x62, 0x6F, 0x6C, 0x69, 0x63, 0x20, 0x6C, 0x69, 0x6E, 0x6B, 0x73, 0x20, 0x65, 0x6E, 0x63, 0x6F, 0x75, 0x6E, 0x74, 0x65, 0x72, 0x65, 0x64]),
  (41, [0x4F, 0x70, 0x65, 0x72, 0x61, 0x74, 0x69, 0x6F, 0x6E, 0x20, 0x77, 0x6F, 0x75, 0x6C, 0x64, 0x20, 0x62, 0x6C, 0x6F, 0x63, 0x6B]),
  (42, [0x4E, 0x6F, 0x20, 0x6D, 0x65, 0x73, 0x73, 0x61, 0x67, 0x65, 0x20, 0x6F, 0x66, 0x20, 0x64, 0x65, 0x73, 0x69, 0x72, 0x65, 0x64, 0x20, 0x74, 0x79, 0x70, 0x65]),
  (43, [0x49, 0x64, 0x65, 0x6E, 0x74, 0x69, 0x66, 0x69, 0x65, 0x72, 0x20, 0x72, 0x65, 0x6D, 0x6F, 0x76, 0x65, 0x64]),
  (44, [0x43, 0x68, 0x61, 0x6E, 0x6E, 0x65, 0x6C, 0x20, 0x6E, 0x75, 0x6D, 0x62, 0x65, 0x72, 0x20, 0x6F, 0x75, 0x74, 0x20, 0x6F, 0x66, 0x20, 0x72, 0x61, 0x6E, 0x67, 0x65]),
  (45, [0x4C, 0x65, 0x76, 0x65, 0x6C, 0x20, 0x32, 0x20, 0x6E, 0x6F, 0x74, 0x20, 0x73, 0x79, 0x6E, 0x63, 0x68, 0x72, 0x6F, 0x6E, 0x69, 0x7A, 0x65, 0x64]),
  (46, [0x4C, 0x65, 0x76, 0x65, 0x6C, 0x20, 0x33, 0x20, 0x68, 0x61, 0x6C, 0x74, 0x65, 0x64]),
  (47, [0x4C, 0x65, 0x76, 0x65, 0x6C, 0x20, 0x33, 0x20, 0x72, 0x65, 0x73, 0x65, 0x74]),
  (48, [0x4C, 0x69, 0x6E, 0x6B, 0x20, 0x6E, 0x75, 0x6D, 0x62, 0x65, 0x72, 0x20, 0x6F, 0x75, 0x74, 0x20, 0x6F, 0x66, 0x20, 0x72, 0x61, 0x6E, 0x67, 0x65]),
  (49, [0x50, 0x72, 0x6F, 0x74, 0x6F, 0x63, 0x6F, 0x6C, 0x20, 0x64, 0x72, 0x69, 0x76, 0x65, 0x72, 0x20, 0x6E, 0x6F, 0x74, 0x20, 0x61, 0x74, 0x74, 0x61, 0x63, 0x68, 0x65, 0x64]),
  (50, [0x4E, 0x6F, 0x20, 0x43, 0x53, 0x49, 0x20, 0x73, 0x74, 0x72, 0x75, 0x63, 0x74, 0x75, 0x72, 0x65, 0x20, 0x61, 0x76, 0x61, 0x69, 0x6C, 0x61, 0x62, 0x6C, 0x65]),
  (51, [0x4C, 0x65, 0x76, 0x65, 0x6C, 0x20, 0x32, 0x20, 0x68, 0x61, 0x6C, 0x74, 0x65, 0x64]),
  (52, [0x49, 0x6E, 0x76, 0x61, 0x6C, 0x69, 0x64, 0x20, 0x65, 0x78, 0x63, 0x68, 0x61, 0x6E, 0x67, 0x65]),
  (53, [0x49, 0x6E, 0x76, 0x61, 0x6C, 0x69, 0x64, 0x20, 0x72, 0x65, 0x71, 0x75, 0x65, 0x73, 0x74, 0x20, 0x64, 0x65, 0x73, 0x63, 0x72, 0x69, 0x70, 0x74, 0x6F, 0x72]),
  (54, [0x45, 0x78, 0x63, 0x68, 0x61, 0x6E, 0x67, 0x65, 0x20, 0x66, 0x75, 0x6C, 0x6C]),
  (55, [0x4E, 0x6F, 0x20, 0x61, 0x6E, 0x6F, 0x64, 0x65]),
  (56, [0x49, 0x6E, 0x76, 0x61, 0x6C, 0x69, 0x64, 0x20, 0x72, 0x65, 0x71, 0x75, 0x65, 0x73, 0x74, 0x20, 0x63, 0x6F, 0x64, 0x65]),
  (57, [0x49, 0x6E, 0x76, 0x61, 0x6C, 0x69, 0x64, 0x20, 0x73, 0x6C, 0x6F, 0x74]),
  (58, [0x52, 0x65, 0x73, 0x6F, 0x75, 0x72, 0x63, 0x65, 0x20, 0x64, 0x65, 0x61, 0x64, 0x6C, 0x6F, 0x63, 0x6B, 0x20, 0x77, 0x6F, 0x75, 0x6C, 0x64, 0x20, 0x6F, 0x63, 0x63, 0x75, 0x72]),
  (59, [0x42, 0x61, 0x64, 0x20, 0x66, 0x6F, 0x6E, 0x74, 0x20, 0x66, 0x69, 0x6C, 0x65, 0x20, 0x66, 0x6F, 0x72, 0x6D, 0x61, 0x74]),
  (60, [0x44, 0x65, 0x76, 0x69, 0x63, 0x65, 0x20, 0x6E, 0x6F, 0x74, 0x20, 0x61, 0x20, 0x73, 0x74, 0x72, 0x65, 0x61, 0x6D]),
  (61, [0x4E, 0x6F, 0x20, 0x64, 0x61, 0x74, 0x61, 0x20, 0x61, 0x76, 0x61, 0x69, 0x6C, 0x61, 0x62, 0x6C, 0x65]),
  (62, [0x54, 0x69, 0x6D, 0x65, 0x72, 0x20, 0x65, 0x78, 0x70, 0x69, 0x72, 0x65, 0x64]),
  (63, [0x4F, 0x75, 0x74, 0x20, 0x6F, 0x66, 0x20, 0x73, 0x74, 0x72, 0x65, 0x61, 0x6D, 0x73, 0x20, 0x72, 0x65, 0x73, 0x6F, 0x75, 0x72, 0x63, 0x65, 0x73]),
  (64, [0x4D, 0x61, 0x63, 0x68, 0x69, 0x6E, 0x65, 0x20, 0x69, 0x73, 0x20, 0x6E, 0x6F, 0x74, 0x20, 0x6F, 0x6E, 0x20, 0x74, 0x68, 0x65, 0x20, 0x6E, 0x65, 0x74, 0x77, 0x6F, 0x72, 0x6B]),
  (65, [0x50, 0x61, 0x63, 0x6B, 0x61, 0x67, 0x65, 0x20, 0x6E, 0x6F, 0x74, 0x20, 0x69, 0x6E, 0x73, 0x74, 0x61, 0x6C, 0x6C, 0x65, 0x64]),
  (66, [0x4F, 0x62, 0x6A, 0x65, 0x63, 0x74, 0x20, 0x69, 0x73, 0x20, 0x72, 0x65, 0x6D, 0x6F, 0x74, 0x65]),
  (67, [0x4C, 0x69, 0x6E, 0x6B, 0x20, 0x68, 0x61, 0x73, 0x20, 0x62, 0x65, 0x65, 0x6E, 0x20, 0x73, 0x65, 0x76, 0x65, 0x72, 0x65, 0x64]),
  (68, [0x41, 0x64, 0x76, 0x65, 0x72, 0x74, 0x69, 0x73, 0x65, 0x20, 0x65, 0x72, 0x72, 0x6F, 0x72]),
  (69, [0x53, 0x72, 0x6D, 0x6F, 0x75, 0x6E, 0x74, 0x20, 0x65, 0x72, 0x72, 0x6F, 0x72]),
  (70, [0x43, 0x6F, 0x6D, 0x6D, 0x75, 0x6E, 0x69, 0x63, 0x61, 0x74, 0x69, 0x6F, 0x6E, 0x20, 0x65, 0x72, 0x72, 0x6F, 0x72, 0x20, 0x6F, 0x6E, 0x20, 0x73, 0x65, 0x6E, 0x64]),
  (71, [0x50, 0x72, 0x6F, 0x74, 0x6F, 0x63, 0x6F, 0x6C, 0x20, 0x65, 0x72, 0x72, 0x6F, 0x72]),
  (72, [0x4D, 0x75, 0x6C, 0x74, 0x69, 0x68, 0x6F, 0x70, 0x20, 0x61, 0x74, 0x74, 0x65, 0x6D, 0x70, 0x74, 0x65, 0x64]),
  (73, [0x52, 0x46, 0x53, 0x20, 0x73, 0x70, 0x65, 0x63, 0x69, 0x66, 0x69, 0x63, 0x20, 0x65, 0x72, 0x72, 0x6F, 0x72]),
  (74, [0x4E, 0x6F, 0x74, 0x20, 0x61, 0x20, 0x64, 0x61, 0x74, 0x61, 0x20, 0x6D, 0x65, 0x73, 0x73, 0x61, 0x67, 0x65]),
  (75, [0x56, 0x61, 0x6C, 0x75, 0x65, 0x20, 0x74, 0x6F, 0x6F, 0x20, 0x6C, 0x61, 0x72, 0x67, 0x65, 0x20, 0x66, 0x6F, 0x72, 0x20, 0x64, 0x65, 0x66, 0x69, 0x6E, 0x65, 0x64, 0x20, 0x64, 0x61, 0x74, 0x61, 0x20, 0x74, 0x79, 0x70, 0x65]),
  (76, [0x4E, 0x61, 0x6D, 0x65, 0x20, 0x6E, 0x6F, 0x74, 0x20, 0x75, 0x6E, 0x69, 0x71, 0x75, 0x65, 0x20, 0x6F, 0x6E, 0x20, 0x6E, 0x65, 0x74, 0x77, 0x6F, 0x72, 0x6B]),
  (77, [0x46, 0x69, 0x6C, 0x65, 0x20, 0x64, 0x65, 0x73, 0x63, 0x72, 0x69, 0x70, 0x74, 0x6F, 0x72, 0x20, 0x69, 0x6E, 0x20, 0x62, 0x61, 0x64, 0x20, 0x73, 0x74, 0x61, 0x74, 0x65]),
  (78, [0x52, 0x65, 0x6D, 0x6F, 0x74, 0x65, 0x20, 0x61, 0x64, 0x64, 0x72, 0x65, 0x73, 0x73, 0x20, 0x63, 0x68, 0x61, 0x6E, 0x67, 0x65, 0x64]),
  (79, [0x43, 0x61, 0x6E, 0x20, 0x6E, 0x6F, 0x74, 0x20, 0x61, 0x63, 0x63, 0x65, 0x73, 0x73, 0x20, 0x61, 0x20, 0x6E, 0x65, 0x65, 0x64, 0x65, 0x64, 0x20, 0x73, 0x68, 0x61, 0x72, 0x65, 0x64, 0x20, 0x6C, 0x69, 0x62, 0x72, 0x61, 0x72, 0x79]),
  (80, [0x41, 0x63, 0x63, 0x65, 0x73, 0x73, 0x69, 0x6E, 0x67, 0x20, 0x61, 0x20, 0x63, 0x6F, 0x72, 0x72, 0x75, 0x70, 0x74, 0x65, 0x64, 0x20, 0x73, 0x68, 0x61, 0x72, 0x65, 0x64, 0x20, 0x6C, 0x69, 0x62, 0x72, 0x61, 0x72, 0x79]),
  (81, [0x2E, 0x6C, 0x69, 0x62, 0x20, 0x73, 0x65, 0x63, 0x74, 0x69, 0x6F, 0x6E, 0x20, 0x69, 0x6E, 0x20, 0x61, 0x2E, 0x6F, 0x75, 0x74, 0x20, 0x63, 0x6F, 0x72, 0x72, 0x75, 0x70, 0x74, 0x65, 0x64]),
  (82, [0x41, 0x74, 0x74, 0x65, 0x6D, 0x70, 0x74, 0x69, 0x6E, 0x67, 0x20, 0x74, 0x6F, 0x20, 0x6C, 0x69, 0x6E, 0x6B, 0x20, 0x69, 0x6E, 0x20, 0x74, 0x6F, 0x6F, 0x20, 0x6D, 0x61, 0x6E, 0x79, 0x20, 0x73, 0x68, 0x61, 0x72, 0x65, 0x64, 0x20, 0x6C, 0x69, 0x62, 0x72, 0x61, 0x72, 0x69, 0x65, 0x73]),
  (83, [0x43, 0x61, 0x6E, 0x6E, 0x6F, 0x74, 0x20, 0x65, 0x78, 0x65, 0x63, 0x20, 0x61, 0x20, 0x73, 0x68, 0x61, 0x72, 0x65, 0x64, 0x20, 0x6C, 0x69, 0x62, 0x72, 0x61, 0x72, 0x79, 0x20, 0x64, 0x69, 0x72, 0x65, 0x63, 0x74, 0x6C, 0x79]),
  (84, [0x49, 0x6C, 0x6C, 0x65, 0x67, 0x61, 0x6C, 0x20, 0x62, 0x79, 0x74, 0x65, 0x20, 0x73, 0x65, 0x71, 0x75, 0x65, 0x6E, 0x63, 0x65]),
  (85, [0x49, 0x6E, 0x74, 0x65, 0x72, 0x72, 0x75, 0x70, 0x74, 0x65, 0x64, 0x20, 0x73, 0x79, 0x73, 0x74, 0x65, 0x6D, 0x20, 0x63, 0x61, 0x6C, 0x6C, 0x20, 0x73, 0x68, 0x6F, 0x75, 0x6C, 0x64, 0x20, 0x62, 0x65, 0x20, 0x72, 0x65, 0x73, 0x74, 0x61, 0x72, 0x74, 0x65, 0x64]),
  (86, [0x53, 0x74, 0x72, 0x65, 0x61, 0x6D, 0x73, 0x20, 0x70, 0x69, 0x70, 0x65, 0x20, 0x65, 0x72, 0x72, 0x6F, 0x72]),
  (87, [0x54, 0x6F, 0x6F, 0x20, 0x6D, 0x61, 0x6E, 0x79, 0x20, 0x75, 0x73, 0x65, 0x72, 0x73]),
  (88, [0x53, 0x6F, 0x63, 0x6B, 0x65, 0x74, 0x20, 0x6F, 0x70, 0x65, 0x72, 0x61, 0x74, 0x69, 0x6F, 0x6E, 0x20, 0x6F, 0x6E, 0x20, 0x6E, 0x6F, 0x6E, 0x2D, 0x73, 0x6F, 0x63, 0x6B, 0x65, 0x74]),
  (89, [0x44, 0x65, 0x73, 0x74, 0x69, 0x6E, 0x61, 0x74, 0x69, 0x6F, 0x6E, 0x20, 0x61, 0x64, 0x64, 0x72, 0x65, 0x73, 0x73, 0x20, 0x72, 0x65, 0x71, 0x75, 0x69, 0x72, 0x65, 0x64]),
  (90, [0x4D, 0x65, 0x73, 0x73, 0x61, 0x67, 0x65, 0x20, 0x74, 0x6F, 0x6F, 0x20, 0x6C, 0x6F, 0x6E, 0x67]),
  (91, [0x50, 0x72, 0x6F, 0x74, 0x6F, 0x63, 0x6F, 0x6C, 0x20, 0x77, 0x72, 0x6F, 0x6E, 0x67, 0x20, 0x74, 0x79, 0x70, 0x65, 0x20, 0x66, 0x6F, 0x72, 0x20, 0x73, 0x6F, 0x63, 0x6B, 0x65, 0x74]),
  (92, [0x50, 0x72, 0x6F, 0x74, 0x6F, 0x63, 0x6F, 0x6C, 0x20, 0x6E, 0x6F, 0x74, 0x20, 0x61, 0x76, 0x61, 0x69, 0x6C, 0x61, 0x62, 0x6C, 0x65]),
  (93, [0x50, 0x72, 0x6F, 0x74, 0x6F, 0x63, 0x6F, 0x6C, 0x20, 0x6E, 0x6F, 0x74, 0x20, 0x73, 0x75, 0x70, 0x70, 0x6F, 0x72, 0x74, 0x65, 0x64]),
  (94, [0x53, 0x6F, 0x63, 0x6B, 0x65, 0x74, 0x20, 0x74, 0x79, 0x70, 0x65, 0x20, 0x6E, 0x6F, 0x74, 0x20, 0x73, 0x75, 0x70, 0x70, 0x6F, 0x72, 0x74, 0x65, 0x64]),
  (95, [0x4F, 0x70, 0x65, 0x72, 0x61, 0x74, 0x69, 0x6F, 0x6E, 0x20, 0x6E, 0x6F, 0x74, 0x20, 0x73, 0x75, 0x70, 0x70, 0x6F, 0x72, 0x74, 0x65, 0x64, 0x20, 0x6F, 0x6E, 0x20, 0x74, 0x72, 0x61, 0x6E, 0x73, 0x70, 0x6F, 0x72, 0x74, 0x20, 0x65, 0x6E, 0x64, 0x70, 0x6F, 0x69, 0x6E, 0x74]),
  (96, [0x50, 0x72, 0x6F, 0x74, 0x6F, 0x63, 0x6F, 0x6C, 0x20, 0x66, 0x61, 0x6D, 0x69, 0x6C, 0x79, 0x20, 0x6E, 0x6F, 0x74, 0x20, 0x73, 0x75, 0x70, 0x70, 0x6F, 0x72, 0x74, 0x65, 0x64]),
  (97, [0x41, 0x64, 0x64, 0x72, 0x65, 0x73, 0x73, 0x20, 0x66, 0x61, 0x6D, 0x69, 0x6C, 0x79, 0x20, 0x6E, 0x6F, 0x74, 0x20, 0x73, 0x75, 0x70, 0x70, 0x6F, 0x72, 0x74, 0x65, 0x64, 0x20, 0x62, 0x79, 0x20, 0x70, 0x72, 0x6F, 0x74, 0x6F, 0x63, 0x6F, 0x6C]),
  (98, [0x41, 0x64, 0x64, 0x72, 0x65, 0x73, 0x73, 0x20, 0x61, 0x6C, 0x72, 0x65, 0x61, 0x64, 0x79, 0x20, 0x69, 0x6E, 0x20, 0x75, 0x73, 0x65]),
  (99, [0x43, 0x61, 0x6E, 0x6E, 0x6F, 0x74, 0x20, 0x61, 0x73, 0x73, 0x69, 0x67, 0x6E, 0x20, 0x72, 0x65, 0x71, 0x75, 0x65, 0x73, 0x74, 0x65, 0x64, 0x20, 0x61, 0x64, 0x64, 0x72, 0x65, 0x73, 0x73]),
  (100, [0x4E, 0x65, 0x74, 0x77, 0x6F, 0x72, 0x6B, 0x20, 0x69, 0x73, 0x20, 0x64, 0x6F, 0x77, 0x6E]),
  (101, [0x4E, 0x65, 0x74, 0x77, 0x6F, 0x72, 0x6B, 0x20, 0x69, 0x73, 0x20, 0x75, 0x6E, 0x72, 0x65, 0x61, 0x63, 0x68, 0x61, 0x62, 0x6C, 0x65]),
  (102, [0x4E, 0x65, 0x74, 0x77, 0x6F, 0x72, 0x6B, 0x20, 0x64, 0x72, 0x6F, 0x70, 0x70, 0x65, 0x64, 0x20, 0x63, 0x6F, 0x6E, 0x6E, 0x65, 0x63, 0x74, 0x69, 0x6F, 0x6E, 0x20, 0x62, 0x65, 0x63, 0x61, 0x75, 0x73, 0x65, 0x20, 0x6F, 0x66, 0x20, 0x72, 0x65, 0x73, 0x65, 0x74]),
  (103, [0x53, 0x6F, 0x66, 0x74, 0x77, 0x61, 0x72, 0x65, 0x20, 0x63, 0x61, 0x75, 0x73, 0x65, 0x64, 0x20, 0x63, 0x6F, 0x6E, 0x6E, 0x65, 0x63, 0x74, 0x69, 0x6F, 0x6E, 0x20, 0x61, 0x62, 0x6F, 0x72, 0x74]),
  (104, [0x43, 0x6F, 0x6E, 0x6E, 0x65, 0x63, 0x74, 0x69, 0x6F, 0x6E, 0x20, 0x72, 0x65, 0x73, 0x65, 0x74, 0x20, 0x62, 0x79, 0x20, 0x70, 0x65, 0x65, 0x72]),
  (105, [0x4E, 0x6F, 0x20, 0x62, 0x75, 0x66, 0x66, 0x65, 0x72, 0x20, 0x73, 0x70, 0x61, 0x63, 0x65, 0x20, 0x61, 0x76, 0x61, 0x69, 0x6C, 0x61, 0x62, 0x6C, 0x65]),
  (106, [0x54, 0x72, 0x61, 0x6E, 0x73, 0x70, 0x6F, 0x72, 0x74, 0x20, 0x65, 0x6E, 0x64, 0x70, 0x6F, 0x69, 0x6E, 0x74, 0x20, 0x69, 0x73, 0x20, 0x61, 0x6C, 0x72, 0x65, 0x61, 0x64, 0x79, 0x20, 0x63, 0x6F, 0x6E, 0x6E, 0x65, 0x63, 0x74, 0x65, 0x64]),
  (107, [0x54, 0x72, 0x61, 0x6E, 0x73, 0x70, 0x6F, 0x72, 0x74, 0x20, 0x65, 0x6E, 0x64, 0x70, 0x6F, 0x69, 0x6E, 0x74, 0x20, 0x69, 0x73, 0x20, 0x6E, 0x6F, 0x74, 0x20, 0x63, 0x6F, 0x6E, 0x6E, 0x65, 0x63, 0x74, 0x65, 0x64]),
  (108, [0x43, 0x61, 0x6E, 0x6E, 0x6F, 0x74, 0x20, 0x73, 0x65, 0x6E, 0x64, 0x20, 0x61, 0x66, 0x74, 0x65, 0x72, 0x20, 0x74, 0x72, 0x61, 0x6E, 0x73, 0x70, 0x6F, 0x72, 0x74, 0x20, 0x65, 0x6E, 0x64, 0x70, 0x6F, 0x69, 0x6E, 0x74, 0x20, 0x73, 0x68, 0x75, 0x74, 0x64, 0x6F, 0x77, 0x6E]),
  (109, [0x54, 0x6F, 0x6F, 0x20, 0x6D, 0x61, 0x6E, 0x79, 0x20, 0x72, 0x65, 0x66, 0x65, 0x72, 0x65, 0x6E, 0x63, 0x65, 0x73, 0x3A, 0x20, 0x63, 0x61, 0x6E, 0x6E, 0x6F, 0x74, 0x20, 0x73, 0x70, 0x6C, 0x69, 0x63, 0x65]),
  (110, [0x43, 0x6F, 0x6E, 0x6E, 0x65, 0x63, 0x74, 0x69, 0x6F, 0x6E, 0x20, 0x74, 0x69, 0x6D, 0x65, 0x64, 0x20, 0x6F, 0x75, 0x74]),
  (111, [0x43, 0x6F, 0x6E, 0x6E, 0x65, 0x63, 0x74, 0x69, 0x6F, 0x6E, 0x20, 0x72, 0x65, 0x66, 0x75, 0x73, 0x65, 0x64]),
  (112, [0x48, 0x6F, 0x73, 0x74, 0x20, 0x69, 0x73, 0x20, 0x64, 0x6F, 0x77, 0x6E]),
  (113, [0x4E, 0x6F, 0x20, 0x72, 0x6F, 0x75, 0x74, 0x65, 0x20, 0x74, 0x6F, 0x20, 0x68, 0x6F, 0x73, 0x74]),
  (114, [0x4F, 0x70, 0x65, 0x72, 0x61, 0x74, 0x69, 0x6F, 0x6E, 0x20, 0x61, 0x6C, 0x72, 0x65, 0x61, 0x64, 0x79, 0x20, 0x69, 0x6E, 0x20, 0x70, 0x72, 0x6F, 0x67, 0x72, 0x65, 0x73, 0x73]),
  (115, [0x4F, 0x70, 0x65, 0x72, 0x61, 0x74, 0x69, 0x6F, 0x6E, 0x20, 0x6E, 0x6F, 0x77, 0x20, 0x69, 0x6E, 0x20, 0x70, 0x72, 0x6F, 0x67, 0x72, 0x65, 0x73, 0x73]),
  (116, [0x53, 0x74, 0x61, 0x6C, 0x65, 0x20, 0x4E, 0x46, 0x53, 0x20, 0x66, 0x69, 0x6C, 0x65, 0x20, 0x68, 0x61, 0x6E, 0x64, 0x6C, 0x65]),
  (117, [0x53, 0x74, 0x72, 0x75, 0x63, 0x74, 0x75, 0x72, 0x65, 0x20, 0x6E, 0x65, 0x65, 0x64, 0x73, 0x20, 0x63, 0x6C, 0x65, 0x61, 0x6E, 0x69, 0x6E, 0x67]),
  (118, [0x4E, 0x6F, 0x74, 0x20, 0x61, 0x20, 0x58, 0x45, 0x4E, 0x49, 0x58, 0x20, 0x6E, 0x61, 0x6D, 0x65, 0x64, 0x20, 0x74, 0x79, 0x70, 0x65, 0x20, 0x66, 0x69, 0x6C, 0x65]),
  (119, [0x4E, 0x6F, 0x20, 0x58, 0x45, 0x4E, 0x49, 0x58, 0x20, 0x73, 0x65, 0x6D, 0x61, 0x70, 0x68, 0x6F, 0x72, 0x65, 0x73, 0x20, 0x61, 0x76, 0x61, 0x69, 0x6C, 0x61, 0x62, 0x6C, 0x65]),
  (120, [0x49, 0x73, 0x20, 0x61, 0x20, 0x6E, 0x61, 0x6D, 0x65, 0x64, 0x20, 0x74, 0x79, 0x70, 0x65, 0x20, 0x66, 0x69, 0x6C, 0x65]),
  (121, [0x52, 0x65, 0x6D, 0x6F, 0x74, 0x65, 0x20, 0x49, 0x2F, 0x4F, 0x20, 0x65, 0x72, 0x72, 0x6F, 0x72]),
  (122, [0x51, 0x75, 0x6F, 0x74, 0x61, 0x20, 0x65, 0x78, 0x63, 0x65, 0x65, 0x64, 0x65, 0x64]),
  (123, [0x4E, 0x6F, 0x20, 0x6D, 0x65, 0x64, 0x69, 0x75, 0x6D, 0x20, 0x66, 0x6F, 0x75, 0x6E, 0x64]),
  (124, [0x57, 0x72, 0x6F, 0x6E, 0x67, 0x20, 0x6D, 0x65, 0x64, 0x69, 0x75, 0x6D, 0x20, 0x74, 0x79, 0x70, 0x65]),
  (125, [0x4F, 0x70, 0x65, 0x72, 0x61, 0x74, 0x69, 0x6F, 0x6E, 0x20, 0x43, 0x61, 0x6E, 0x63, 0x65, 0x6C, 0x65, 0x64]),
  (126, [0x52, 0x65, 0x71, 0x75, 0x69, 0x72, 0x65, 0x64, 0x20, 0x6B, 0x65, 0x79, 0x20, 0x6E, 0x6F, 0x74, 0x20, 0x61, 0x76, 0x61, 0x69, 0x6C, 0x61, 0x62, 0x6C, 0x65]),
  (127, [0x4B, 0x65, 0x79, 0x20, 0x68, 0x61, 0x73, 0x20, 0x65, 0x78, 0x70, 0x69, 0x72, 0x65, 0x64]),
  (128, [0x4B, 0x65, 0x79, 0x20, 0x68, 0x61, 0x73, 0x20, 0x62, 0x65, 0x65, 0x6E, 0x20, 0x72, 0x65, 0x76, 0x6F, 0x6B, 0x65, 0x64]),
  (129, [0x4B, 0x65, 0x79, 0x20, 0x77, 0x61, 0x73, 0x20, 0x72, 0x65, 0x6A, 0x65, 0x63, 0x74, 0x65, 0x64, 0x20, 0x62, 0x79, 0x20, 0x73, 0x65, 0x72, 0x76, 0x69, 0x63, 0x65]),
  (130, [0x4F, 0x77, 0x6E, 0x65, 0x72, 0x20, 0x64, 0x69, 0x65, 0x64]),
  (131, [0x53, 0x74, 0x61, 0x74, 0x65, 0x20, 0x6E, 0x6F, 0x74, 0x20, 0x72, 0x65, 0x63, 0x6F, 0x76, 0x65, 0x72, 0x61, 0x62, 0x6C, 0x65])]

end Verif.Messages
