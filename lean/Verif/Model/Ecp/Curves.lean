import Verif.Model.Ecp.Ecp
/-! The built-in groups (src/ecp/ecp_curves.c).  All are enabled in the configuration (include/cry/config.h). -/
namespace Verif.Ecp
open Verif.Mpi

/-- Value of bytes, least significant first. -/
def leBytes : List Nat → Nat
  | [] => 0
  | b :: bs => b + 256 * leBytes bs

/-- Groups of `m` bytes; the first argument bounds their number. -/
def groups (m : Nat) : Nat → List Nat → List (List Nat)
  | 0, _ => []
  | _, [] => []
  | k + 1, bs => bs.take m :: groups m k (bs.drop m)

/-- The macros `BYTES_TO_DIGITS_2`, `_4` and `_8` (src/ecp/ecp_curves.c:4-68): the digits made of one row of bytes, the
missing bytes of a digit being 0. -/
def rowDigits (w : Nat) (bs : List Nat) : List Nat := (groups (w / 8) bs.length bs).map leBytes

/-- `ecp_mpi_load` (src/ecp/ecp_curves.c:608-614): the digits are used as they are, without removing leading zeros. -/
def mpiLoad (w : Nat) (rows : List (List Nat)) : Mpi := ⟨false, rows.flatMap (rowDigits w)⟩

/-- `secp192r1_p` (src/ecp/ecp_curves.c:79-83). -/
def secp192r1_p : List (List Nat) :=
  [[0xff, 0xff, 0xff, 0xff, 0xff, 0xff, 0xff, 0xff],
   [0xfe, 0xff, 0xff, 0xff, 0xff, 0xff, 0xff, 0xff],
   [0xff, 0xff, 0xff, 0xff, 0xff, 0xff, 0xff, 0xff]]

/-- No table: `#define secp192r1_a NULL` (src/ecp/ecp_curves.c). -/
def secp192r1_a : Option (List (List Nat)) := none

/-- `secp192r1_b` (src/ecp/ecp_curves.c:87-91). -/
def secp192r1_b : List (List Nat) :=
  [[0xb1, 0xb9, 0x46, 0xc1, 0xec, 0xde, 0xb8, 0xfe],
   [0x49, 0x30, 0x24, 0x72, 0xab, 0xe9, 0xa7, 0x0f],
   [0xe7, 0x80, 0x9c, 0xe5, 0x19, 0x05, 0x21, 0x64]]

/-- `secp192r1_gx` (src/ecp/ecp_curves.c:92-96). -/
def secp192r1_gx : List (List Nat) :=
  [[0x12, 0x10, 0xff, 0x82, 0xfd, 0x0a, 0xff, 0xf4],
   [0x00, 0x88, 0xa1, 0x43, 0xeb, 0x20, 0xbf, 0x7c],
   [0xf6, 0x90, 0x30, 0xb0, 0x0e, 0xa8, 0x8d, 0x18]]

/-- `secp192r1_gy` (src/ecp/ecp_curves.c:97-101). -/
def secp192r1_gy : List (List Nat) :=
  [[0x11, 0x48, 0x79, 0x1e, 0xa1, 0x77, 0xf9, 0x73],
   [0xd5, 0xcd, 0x24, 0x6b, 0xed, 0x11, 0x10, 0x63],
   [0x78, 0xda, 0xc8, 0xff, 0x95, 0x2b, 0x19, 0x07]]

/-- `secp192r1_n` (src/ecp/ecp_curves.c:102-106). -/
def secp192r1_n : List (List Nat) :=
  [[0x31, 0x28, 0xd2, 0xb4, 0xb1, 0xc9, 0x6b, 0x14],
   [0x36, 0xf8, 0xde, 0x99, 0xff, 0xff, 0xff, 0xff],
   [0xff, 0xff, 0xff, 0xff, 0xff, 0xff, 0xff, 0xff]]

/-- `secp224r1_p` (src/ecp/ecp_curves.c:117-122). -/
def secp224r1_p : List (List Nat) :=
  [[0x01, 0x00, 0x00, 0x00, 0x00, 0x00, 0x00, 0x00],
   [0x00, 0x00, 0x00, 0x00, 0xff, 0xff, 0xff, 0xff],
   [0xff, 0xff, 0xff, 0xff, 0xff, 0xff, 0xff, 0xff],
   [0xff, 0xff, 0xff, 0xff]]

/-- No table: `#define secp224r1_a NULL` (src/ecp/ecp_curves.c). -/
def secp224r1_a : Option (List (List Nat)) := none

/-- `secp224r1_b` (src/ecp/ecp_curves.c:126-131). -/
def secp224r1_b : List (List Nat) :=
  [[0xb4, 0xff, 0x55, 0x23, 0x43, 0x39, 0x0b, 0x27],
   [0xba, 0xd8, 0xbf, 0xd7, 0xb7, 0xb0, 0x44, 0x50],
   [0x56, 0x32, 0x41, 0xf5, 0xab, 0xb3, 0x04, 0x0c],
   [0x85, 0x0a, 0x05, 0xb4]]

/-- `secp224r1_gx` (src/ecp/ecp_curves.c:132-137). -/
def secp224r1_gx : List (List Nat) :=
  [[0x21, 0x1d, 0x5c, 0x11, 0xd6, 0x80, 0x32, 0x34],
   [0x22, 0x11, 0xc2, 0x56, 0xd3, 0xc1, 0x03, 0x4a],
   [0xb9, 0x90, 0x13, 0x32, 0x7f, 0xbf, 0xb4, 0x6b],
   [0xbd, 0x0c, 0x0e, 0xb7]]

/-- `secp224r1_gy` (src/ecp/ecp_curves.c:138-143). -/
def secp224r1_gy : List (List Nat) :=
  [[0x34, 0x7e, 0x00, 0x85, 0x99, 0x81, 0xd5, 0x44],
   [0x64, 0x47, 0x07, 0x5a, 0xa0, 0x75, 0x43, 0xcd],
   [0xe6, 0xdf, 0x22, 0x4c, 0xfb, 0x23, 0xf7, 0xb5],
   [0x88, 0x63, 0x37, 0xbd]]

/-- `secp224r1_n` (src/ecp/ecp_curves.c:144-149). -/
def secp224r1_n : List (List Nat) :=
  [[0x3d, 0x2a, 0x5c, 0x5c, 0x45, 0x29, 0xdd, 0x13],
   [0x3e, 0xf0, 0xb8, 0xe0, 0xa2, 0x16, 0xff, 0xff],
   [0xff, 0xff, 0xff, 0xff, 0xff, 0xff, 0xff, 0xff],
   [0xff, 0xff, 0xff, 0xff]]

/-- `secp256r1_p` (src/ecp/ecp_curves.c:160-165). -/
def secp256r1_p : List (List Nat) :=
  [[0xff, 0xff, 0xff, 0xff, 0xff, 0xff, 0xff, 0xff],
   [0xff, 0xff, 0xff, 0xff, 0x00, 0x00, 0x00, 0x00],
   [0x00, 0x00, 0x00, 0x00, 0x00, 0x00, 0x00, 0x00],
   [0x01, 0x00, 0x00, 0x00, 0xff, 0xff, 0xff, 0xff]]

/-- No table: `#define secp256r1_a NULL` (src/ecp/ecp_curves.c). -/
def secp256r1_a : Option (List (List Nat)) := none

/-- `secp256r1_b` (src/ecp/ecp_curves.c:169-174). -/
def secp256r1_b : List (List Nat) :=
  [[0x4b, 0x60, 0xd2, 0x27, 0x3e, 0x3c, 0xce, 0x3b],
   [0xf6, 0xb0, 0x53, 0xcc, 0xb0, 0x06, 0x1d, 0x65],
   [0xbc, 0x86, 0x98, 0x76, 0x55, 0xbd, 0xeb, 0xb3],
   [0xe7, 0x93, 0x3a, 0xaa, 0xd8, 0x35, 0xc6, 0x5a]]

/-- `secp256r1_gx` (src/ecp/ecp_curves.c:175-180). -/
def secp256r1_gx : List (List Nat) :=
  [[0x96, 0xc2, 0x98, 0xd8, 0x45, 0x39, 0xa1, 0xf4],
   [0xa0, 0x33, 0xeb, 0x2d, 0x81, 0x7d, 0x03, 0x77],
   [0xf2, 0x40, 0xa4, 0x63, 0xe5, 0xe6, 0xbc, 0xf8],
   [0x47, 0x42, 0x2c, 0xe1, 0xf2, 0xd1, 0x17, 0x6b]]

/-- `secp256r1_gy` (src/ecp/ecp_curves.c:181-186). -/
def secp256r1_gy : List (List Nat) :=
  [[0xf5, 0x51, 0xbf, 0x37, 0x68, 0x40, 0xb6, 0xcb],
   [0xce, 0x5e, 0x31, 0x6b, 0x57, 0x33, 0xce, 0x2b],
   [0x16, 0x9e, 0x0f, 0x7c, 0x4a, 0xeb, 0xe7, 0x8e],
   [0x9b, 0x7f, 0x1a, 0xfe, 0xe2, 0x42, 0xe3, 0x4f]]

/-- `secp256r1_n` (src/ecp/ecp_curves.c:187-192). -/
def secp256r1_n : List (List Nat) :=
  [[0x51, 0x25, 0x63, 0xfc, 0xc2, 0xca, 0xb9, 0xf3],
   [0x84, 0x9e, 0x17, 0xa7, 0xad, 0xfa, 0xe6, 0xbc],
   [0xff, 0xff, 0xff, 0xff, 0xff, 0xff, 0xff, 0xff],
   [0x00, 0x00, 0x00, 0x00, 0xff, 0xff, 0xff, 0xff]]

/-- `secp384r1_p` (src/ecp/ecp_curves.c:203-210). -/
def secp384r1_p : List (List Nat) :=
  [[0xff, 0xff, 0xff, 0xff, 0x00, 0x00, 0x00, 0x00],
   [0x00, 0x00, 0x00, 0x00, 0xff, 0xff, 0xff, 0xff],
   [0xfe, 0xff, 0xff, 0xff, 0xff, 0xff, 0xff, 0xff],
   [0xff, 0xff, 0xff, 0xff, 0xff, 0xff, 0xff, 0xff],
   [0xff, 0xff, 0xff, 0xff, 0xff, 0xff, 0xff, 0xff],
   [0xff, 0xff, 0xff, 0xff, 0xff, 0xff, 0xff, 0xff]]

/-- No table: `#define secp384r1_a NULL` (src/ecp/ecp_curves.c). -/
def secp384r1_a : Option (List (List Nat)) := none

/-- `secp384r1_b` (src/ecp/ecp_curves.c:214-221). -/
def secp384r1_b : List (List Nat) :=
  [[0xef, 0x2a, 0xec, 0xd3, 0xed, 0xc8, 0x85, 0x2a],
   [0x9d, 0xd1, 0x2e, 0x8a, 0x8d, 0x39, 0x56, 0xc6],
   [0x5a, 0x87, 0x13, 0x50, 0x8f, 0x08, 0x14, 0x03],
   [0x12, 0x41, 0x81, 0xfe, 0x6e, 0x9c, 0x1d, 0x18],
   [0x19, 0x2d, 0xf8, 0xe3, 0x6b, 0x05, 0x8e, 0x98],
   [0xe4, 0xe7, 0x3e, 0xe2, 0xa7, 0x2f, 0x31, 0xb3]]

/-- `secp384r1_gx` (src/ecp/ecp_curves.c:222-229). -/
def secp384r1_gx : List (List Nat) :=
  [[0xb7, 0x0a, 0x76, 0x72, 0x38, 0x5e, 0x54, 0x3a],
   [0x6c, 0x29, 0x55, 0xbf, 0x5d, 0xf2, 0x02, 0x55],
   [0x38, 0x2a, 0x54, 0x82, 0xe0, 0x41, 0xf7, 0x59],
   [0x98, 0x9b, 0xa7, 0x8b, 0x62, 0x3b, 0x1d, 0x6e],
   [0x74, 0xad, 0x20, 0xf3, 0x1e, 0xc7, 0xb1, 0x8e],
   [0x37, 0x05, 0x8b, 0xbe, 0x22, 0xca, 0x87, 0xaa]]

/-- `secp384r1_gy` (src/ecp/ecp_curves.c:230-237). -/
def secp384r1_gy : List (List Nat) :=
  [[0x5f, 0x0e, 0xea, 0x90, 0x7c, 0x1d, 0x43, 0x7a],
   [0x9d, 0x81, 0x7e, 0x1d, 0xce, 0xb1, 0x60, 0x0a],
   [0xc0, 0xb8, 0xf0, 0xb5, 0x13, 0x31, 0xda, 0xe9],
   [0x7c, 0x14, 0x9a, 0x28, 0xbd, 0x1d, 0xf4, 0xf8],
   [0x29, 0xdc, 0x92, 0x92, 0xbf, 0x98, 0x9e, 0x5d],
   [0x6f, 0x2c, 0x26, 0x96, 0x4a, 0xde, 0x17, 0x36]]

/-- `secp384r1_n` (src/ecp/ecp_curves.c:238-245). -/
def secp384r1_n : List (List Nat) :=
  [[0x73, 0x29, 0xc5, 0xcc, 0x6a, 0x19, 0xec, 0xec],
   [0x7a, 0xa7, 0xb0, 0x48, 0xb2, 0x0d, 0x1a, 0x58],
   [0xdf, 0x2d, 0x37, 0xf4, 0x81, 0x4d, 0x63, 0xc7],
   [0xff, 0xff, 0xff, 0xff, 0xff, 0xff, 0xff, 0xff],
   [0xff, 0xff, 0xff, 0xff, 0xff, 0xff, 0xff, 0xff],
   [0xff, 0xff, 0xff, 0xff, 0xff, 0xff, 0xff, 0xff]]

/-- `secp521r1_p` (src/ecp/ecp_curves.c:256-266). -/
def secp521r1_p : List (List Nat) :=
  [[0xff, 0xff, 0xff, 0xff, 0xff, 0xff, 0xff, 0xff],
   [0xff, 0xff, 0xff, 0xff, 0xff, 0xff, 0xff, 0xff],
   [0xff, 0xff, 0xff, 0xff, 0xff, 0xff, 0xff, 0xff],
   [0xff, 0xff, 0xff, 0xff, 0xff, 0xff, 0xff, 0xff],
   [0xff, 0xff, 0xff, 0xff, 0xff, 0xff, 0xff, 0xff],
   [0xff, 0xff, 0xff, 0xff, 0xff, 0xff, 0xff, 0xff],
   [0xff, 0xff, 0xff, 0xff, 0xff, 0xff, 0xff, 0xff],
   [0xff, 0xff, 0xff, 0xff, 0xff, 0xff, 0xff, 0xff],
   [0xff, 0x01]]

/-- No table: `#define secp521r1_a NULL` (src/ecp/ecp_curves.c). -/
def secp521r1_a : Option (List (List Nat)) := none

/-- `secp521r1_b` (src/ecp/ecp_curves.c:270-280). -/
def secp521r1_b : List (List Nat) :=
  [[0x00, 0x3f, 0x50, 0x6b, 0xd4, 0x1f, 0x45, 0xef],
   [0xf1, 0x34, 0x2c, 0x3d, 0x88, 0xdf, 0x73, 0x35],
   [0x07, 0xbf, 0xb1, 0x3b, 0xbd, 0xc0, 0x52, 0x16],
   [0x7b, 0x93, 0x7e, 0xec, 0x51, 0x39, 0x19, 0x56],
   [0xe1, 0x09, 0xf1, 0x8e, 0x91, 0x89, 0xb4, 0xb8],
   [0xf3, 0x15, 0xb3, 0x99, 0x5b, 0x72, 0xda, 0xa2],
   [0xee, 0x40, 0x85, 0xb6, 0xa0, 0x21, 0x9a, 0x92],
   [0x1f, 0x9a, 0x1c, 0x8e, 0x61, 0xb9, 0x3e, 0x95],
   [0x51, 0x00]]

/-- `secp521r1_gx` (src/ecp/ecp_curves.c:281-291). -/
def secp521r1_gx : List (List Nat) :=
  [[0x66, 0xbd, 0xe5, 0xc2, 0x31, 0x7e, 0x7e, 0xf9],
   [0x9b, 0x42, 0x6a, 0x85, 0xc1, 0xb3, 0x48, 0x33],
   [0xde, 0xa8, 0xff, 0xa2, 0x27, 0xc1, 0x1d, 0xfe],
   [0x28, 0x59, 0xe7, 0xef, 0x77, 0x5e, 0x4b, 0xa1],
   [0xba, 0x3d, 0x4d, 0x6b, 0x60, 0xaf, 0x28, 0xf8],
   [0x21, 0xb5, 0x3f, 0x05, 0x39, 0x81, 0x64, 0x9c],
   [0x42, 0xb4, 0x95, 0x23, 0x66, 0xcb, 0x3e, 0x9e],
   [0xcd, 0xe9, 0x04, 0x04, 0xb7, 0x06, 0x8e, 0x85],
   [0xc6, 0x00]]

/-- `secp521r1_gy` (src/ecp/ecp_curves.c:292-302). -/
def secp521r1_gy : List (List Nat) :=
  [[0x50, 0x66, 0xd1, 0x9f, 0x76, 0x94, 0xbe, 0x88],
   [0x40, 0xc2, 0x72, 0xa2, 0x86, 0x70, 0x3c, 0x35],
   [0x61, 0x07, 0xad, 0x3f, 0x01, 0xb9, 0x50, 0xc5],
   [0x40, 0x26, 0xf4, 0x5e, 0x99, 0x72, 0xee, 0x97],
   [0x2c, 0x66, 0x3e, 0x27, 0x17, 0xbd, 0xaf, 0x17],
   [0x68, 0x44, 0x9b, 0x57, 0x49, 0x44, 0xf5, 0x98],
   [0xd9, 0x1b, 0x7d, 0x2c, 0xb4, 0x5f, 0x8a, 0x5c],
   [0x04, 0xc0, 0x3b, 0x9a, 0x78, 0x6a, 0x29, 0x39],
   [0x18, 0x01]]

/-- `secp521r1_n` (src/ecp/ecp_curves.c:303-313). -/
def secp521r1_n : List (List Nat) :=
  [[0x09, 0x64, 0x38, 0x91, 0x1e, 0xb7, 0x6f, 0xbb],
   [0xae, 0x47, 0x9c, 0x89, 0xb8, 0xc9, 0xb5, 0x3b],
   [0xd0, 0xa5, 0x09, 0xf7, 0x48, 0x01, 0xcc, 0x7f],
   [0x6b, 0x96, 0x2f, 0xbf, 0x83, 0x87, 0x86, 0x51],
   [0xfa, 0xff, 0xff, 0xff, 0xff, 0xff, 0xff, 0xff],
   [0xff, 0xff, 0xff, 0xff, 0xff, 0xff, 0xff, 0xff],
   [0xff, 0xff, 0xff, 0xff, 0xff, 0xff, 0xff, 0xff],
   [0xff, 0xff, 0xff, 0xff, 0xff, 0xff, 0xff, 0xff],
   [0xff, 0x01]]

/-- `secp192k1_p` (src/ecp/ecp_curves.c:324-328). -/
def secp192k1_p : List (List Nat) :=
  [[0x37, 0xee, 0xff, 0xff, 0xfe, 0xff, 0xff, 0xff],
   [0xff, 0xff, 0xff, 0xff, 0xff, 0xff, 0xff, 0xff],
   [0xff, 0xff, 0xff, 0xff, 0xff, 0xff, 0xff, 0xff]]

/-- `secp192k1_a` (src/ecp/ecp_curves.c:329-331). -/
def secp192k1_a : Option (List (List Nat)) := some
  [[0x00, 0x00]]

/-- `secp192k1_b` (src/ecp/ecp_curves.c:332-334). -/
def secp192k1_b : List (List Nat) :=
  [[0x03, 0x00]]

/-- `secp192k1_gx` (src/ecp/ecp_curves.c:335-339). -/
def secp192k1_gx : List (List Nat) :=
  [[0x7d, 0x6c, 0xe0, 0xea, 0xb1, 0xd1, 0xa5, 0x1d],
   [0x34, 0xf4, 0xb7, 0x80, 0x02, 0x7d, 0xb0, 0x26],
   [0xae, 0xe9, 0x57, 0xc0, 0x0e, 0xf1, 0x4f, 0xdb]]

/-- `secp192k1_gy` (src/ecp/ecp_curves.c:340-344). -/
def secp192k1_gy : List (List Nat) :=
  [[0x9d, 0x2f, 0x5e, 0xd9, 0x88, 0xaa, 0x82, 0x40],
   [0x34, 0x86, 0xbe, 0x15, 0xd0, 0x63, 0x41, 0x84],
   [0xa7, 0x28, 0x56, 0x9c, 0x6d, 0x2f, 0x2f, 0x9b]]

/-- `secp192k1_n` (src/ecp/ecp_curves.c:345-349). -/
def secp192k1_n : List (List Nat) :=
  [[0x8d, 0xfd, 0xde, 0x74, 0x6a, 0x46, 0x69, 0x0f],
   [0x17, 0xfc, 0xf2, 0x26, 0xfe, 0xff, 0xff, 0xff],
   [0xff, 0xff, 0xff, 0xff, 0xff, 0xff, 0xff, 0xff]]

/-- `secp224k1_p` (src/ecp/ecp_curves.c:360-365). -/
def secp224k1_p : List (List Nat) :=
  [[0x6d, 0xe5, 0xff, 0xff, 0xfe, 0xff, 0xff, 0xff],
   [0xff, 0xff, 0xff, 0xff, 0xff, 0xff, 0xff, 0xff],
   [0xff, 0xff, 0xff, 0xff, 0xff, 0xff, 0xff, 0xff],
   [0xff, 0xff, 0xff, 0xff]]

/-- `secp224k1_a` (src/ecp/ecp_curves.c:366-368). -/
def secp224k1_a : Option (List (List Nat)) := some
  [[0x00, 0x00]]

/-- `secp224k1_b` (src/ecp/ecp_curves.c:369-371). -/
def secp224k1_b : List (List Nat) :=
  [[0x05, 0x00]]

/-- `secp224k1_gx` (src/ecp/ecp_curves.c:372-377). -/
def secp224k1_gx : List (List Nat) :=
  [[0x5c, 0xa4, 0xb7, 0xb6, 0x0e, 0x65, 0x7e, 0x0f],
   [0xa9, 0x75, 0x70, 0xe4, 0xe9, 0x67, 0xa4, 0x69],
   [0xa1, 0x28, 0xfc, 0x30, 0xdf, 0x99, 0xf0, 0x4d],
   [0x33, 0x5b, 0x45, 0xa1]]

/-- `secp224k1_gy` (src/ecp/ecp_curves.c:378-383). -/
def secp224k1_gy : List (List Nat) :=
  [[0xa5, 0x61, 0x6d, 0x55, 0xdb, 0x4b, 0xca, 0xe2],
   [0x59, 0xbd, 0xb0, 0xc0, 0xf7, 0x19, 0xe3, 0xf7],
   [0xd6, 0xfb, 0xca, 0x82, 0x42, 0x34, 0xba, 0x7f],
   [0xed, 0x9f, 0x08, 0x7e]]

/-- `secp224k1_n` (src/ecp/ecp_curves.c:384-389). -/
def secp224k1_n : List (List Nat) :=
  [[0xf7, 0xb1, 0x9f, 0x76, 0x71, 0xa9, 0xf0, 0xca],
   [0x84, 0x61, 0xec, 0xd2, 0xe8, 0xdc, 0x01, 0x00],
   [0x00, 0x00, 0x00, 0x00, 0x00, 0x00, 0x00, 0x00],
   [0x00, 0x00, 0x00, 0x00, 0x01, 0x00, 0x00, 0x00]]

/-- `secp256k1_p` (src/ecp/ecp_curves.c:400-405). -/
def secp256k1_p : List (List Nat) :=
  [[0x2f, 0xfc, 0xff, 0xff, 0xfe, 0xff, 0xff, 0xff],
   [0xff, 0xff, 0xff, 0xff, 0xff, 0xff, 0xff, 0xff],
   [0xff, 0xff, 0xff, 0xff, 0xff, 0xff, 0xff, 0xff],
   [0xff, 0xff, 0xff, 0xff, 0xff, 0xff, 0xff, 0xff]]

/-- `secp256k1_a` (src/ecp/ecp_curves.c:406-408). -/
def secp256k1_a : Option (List (List Nat)) := some
  [[0x00, 0x00]]

/-- `secp256k1_b` (src/ecp/ecp_curves.c:409-411). -/
def secp256k1_b : List (List Nat) :=
  [[0x07, 0x00]]

/-- `secp256k1_gx` (src/ecp/ecp_curves.c:412-417). -/
def secp256k1_gx : List (List Nat) :=
  [[0x98, 0x17, 0xf8, 0x16, 0x5b, 0x81, 0xf2, 0x59],
   [0xd9, 0x28, 0xce, 0x2d, 0xdb, 0xfc, 0x9b, 0x02],
   [0x07, 0x0b, 0x87, 0xce, 0x95, 0x62, 0xa0, 0x55],
   [0xac, 0xbb, 0xdc, 0xf9, 0x7e, 0x66, 0xbe, 0x79]]

/-- `secp256k1_gy` (src/ecp/ecp_curves.c:418-423). -/
def secp256k1_gy : List (List Nat) :=
  [[0xb8, 0xd4, 0x10, 0xfb, 0x8f, 0xd0, 0x47, 0x9c],
   [0x19, 0x54, 0x85, 0xa6, 0x48, 0xb4, 0x17, 0xfd],
   [0xa8, 0x08, 0x11, 0x0e, 0xfc, 0xfb, 0xa4, 0x5d],
   [0x65, 0xc4, 0xa3, 0x26, 0x77, 0xda, 0x3a, 0x48]]

/-- `secp256k1_n` (src/ecp/ecp_curves.c:424-429). -/
def secp256k1_n : List (List Nat) :=
  [[0x41, 0x41, 0x36, 0xd0, 0x8c, 0x5e, 0xd2, 0xbf],
   [0x3b, 0xa0, 0x48, 0xaf, 0xe6, 0xdc, 0xae, 0xba],
   [0xfe, 0xff, 0xff, 0xff, 0xff, 0xff, 0xff, 0xff],
   [0xff, 0xff, 0xff, 0xff, 0xff, 0xff, 0xff, 0xff]]

/-- `brainpoolP256r1_p` (src/ecp/ecp_curves.c:440-445). -/
def brainpoolP256r1_p : List (List Nat) :=
  [[0x77, 0x53, 0x6e, 0x1f, 0x1d, 0x48, 0x13, 0x20],
   [0x28, 0x20, 0x26, 0xd5, 0x23, 0xf6, 0x3b, 0x6e],
   [0x72, 0x8d, 0x83, 0x9d, 0x90, 0x0a, 0x66, 0x3e],
   [0xbc, 0xa9, 0xee, 0xa1, 0xdb, 0x57, 0xfb, 0xa9]]

/-- `brainpoolP256r1_a` (src/ecp/ecp_curves.c:446-451). -/
def brainpoolP256r1_a : Option (List (List Nat)) := some
  [[0xd9, 0xb5, 0x30, 0xf3, 0x44, 0x4b, 0x4a, 0xe9],
   [0x6c, 0x5c, 0xdc, 0x26, 0xc1, 0x55, 0x80, 0xfb],
   [0xe7, 0xff, 0x7a, 0x41, 0x30, 0x75, 0xf6, 0xee],
   [0x57, 0x30, 0x2c, 0xfc, 0x75, 0x09, 0x5a, 0x7d]]

/-- `brainpoolP256r1_b` (src/ecp/ecp_curves.c:452-457). -/
def brainpoolP256r1_b : List (List Nat) :=
  [[0xb6, 0x07, 0x8c, 0xff, 0x18, 0xdc, 0xcc, 0x6b],
   [0xce, 0xe1, 0xf7, 0x5c, 0x29, 0x16, 0x84, 0x95],
   [0xbf, 0x7c, 0xd7, 0xbb, 0xd9, 0xb5, 0x30, 0xf3],
   [0x44, 0x4b, 0x4a, 0xe9, 0x6c, 0x5c, 0xdc, 0x26]]

/-- `brainpoolP256r1_gx` (src/ecp/ecp_curves.c:458-463). -/
def brainpoolP256r1_gx : List (List Nat) :=
  [[0x62, 0x32, 0xce, 0x9a, 0xbd, 0x53, 0x44, 0x3a],
   [0xc2, 0x23, 0xbd, 0xe3, 0xe1, 0x27, 0xde, 0xb9],
   [0xaf, 0xb7, 0x81, 0xfc, 0x2f, 0x48, 0x4b, 0x2c],
   [0xcb, 0x57, 0x7e, 0xcb, 0xb9, 0xae, 0xd2, 0x8b]]

/-- `brainpoolP256r1_gy` (src/ecp/ecp_curves.c:464-469). -/
def brainpoolP256r1_gy : List (List Nat) :=
  [[0x97, 0x69, 0x04, 0x2f, 0xc7, 0x54, 0x1d, 0x5c],
   [0x54, 0x8e, 0xed, 0x2d, 0x13, 0x45, 0x77, 0xc2],
   [0xc9, 0x1d, 0x61, 0x14, 0x1a, 0x46, 0xf8, 0x97],
   [0xfd, 0xc4, 0xda, 0xc3, 0x35, 0xf8, 0x7e, 0x54]]

/-- `brainpoolP256r1_n` (src/ecp/ecp_curves.c:470-475). -/
def brainpoolP256r1_n : List (List Nat) :=
  [[0xa7, 0x56, 0x48, 0x97, 0x82, 0x0e, 0x1e, 0x90],
   [0xf7, 0xa6, 0x61, 0xb5, 0xa3, 0x7a, 0x39, 0x8c],
   [0x71, 0x8d, 0x83, 0x9d, 0x90, 0x0a, 0x66, 0x3e],
   [0xbc, 0xa9, 0xee, 0xa1, 0xdb, 0x57, 0xfb, 0xa9]]

/-- `brainpoolP384r1_p` (src/ecp/ecp_curves.c:486-493). -/
def brainpoolP384r1_p : List (List Nat) :=
  [[0x53, 0xec, 0x07, 0x31, 0x13, 0x00, 0x47, 0x87],
   [0x71, 0x1a, 0x1d, 0x90, 0x29, 0xa7, 0xd3, 0xac],
   [0x23, 0x11, 0xb7, 0x7f, 0x19, 0xda, 0xb1, 0x12],
   [0xb4, 0x56, 0x54, 0xed, 0x09, 0x71, 0x2f, 0x15],
   [0xdf, 0x41, 0xe6, 0x50, 0x7e, 0x6f, 0x5d, 0x0f],
   [0x28, 0x6d, 0x38, 0xa3, 0x82, 0x1e, 0xb9, 0x8c]]

/-- `brainpoolP384r1_a` (src/ecp/ecp_curves.c:494-501). -/
def brainpoolP384r1_a : Option (List (List Nat)) := some
  [[0x26, 0x28, 0xce, 0x22, 0xdd, 0xc7, 0xa8, 0x04],
   [0xeb, 0xd4, 0x3a, 0x50, 0x4a, 0x81, 0xa5, 0x8a],
   [0x0f, 0xf9, 0x91, 0xba, 0xef, 0x65, 0x91, 0x13],
   [0x87, 0x27, 0xb2, 0x4f, 0x8e, 0xa2, 0xbe, 0xc2],
   [0xa0, 0xaf, 0x05, 0xce, 0x0a, 0x08, 0x72, 0x3c],
   [0x0c, 0x15, 0x8c, 0x3d, 0xc6, 0x82, 0xc3, 0x7b]]

/-- `brainpoolP384r1_b` (src/ecp/ecp_curves.c:502-509). -/
def brainpoolP384r1_b : List (List Nat) :=
  [[0x11, 0x4c, 0x50, 0xfa, 0x96, 0x86, 0xb7, 0x3a],
   [0x94, 0xc9, 0xdb, 0x95, 0x02, 0x39, 0xb4, 0x7c],
   [0xd5, 0x62, 0xeb, 0x3e, 0xa5, 0x0e, 0x88, 0x2e],
   [0xa6, 0xd2, 0xdc, 0x07, 0xe1, 0x7d, 0xb7, 0x2f],
   [0x7c, 0x44, 0xf0, 0x16, 0x54, 0xb5, 0x39, 0x8b],
   [0x26, 0x28, 0xce, 0x22, 0xdd, 0xc7, 0xa8, 0x04]]

/-- `brainpoolP384r1_gx` (src/ecp/ecp_curves.c:510-517). -/
def brainpoolP384r1_gx : List (List Nat) :=
  [[0x1e, 0xaf, 0xd4, 0x47, 0xe2, 0xb2, 0x87, 0xef],
   [0xaa, 0x46, 0xd6, 0x36, 0x34, 0xe0, 0x26, 0xe8],
   [0xe8, 0x10, 0xbd, 0x0c, 0xfe, 0xca, 0x7f, 0xdb],
   [0xe3, 0x4f, 0xf1, 0x7e, 0xe7, 0xa3, 0x47, 0x88],
   [0x6b, 0x3f, 0xc1, 0xb7, 0x81, 0x3a, 0xa6, 0xa2],
   [0xff, 0x45, 0xcf, 0x68, 0xf0, 0x64, 0x1c, 0x1d]]

/-- `brainpoolP384r1_gy` (src/ecp/ecp_curves.c:518-525). -/
def brainpoolP384r1_gy : List (List Nat) :=
  [[0x15, 0x53, 0x3c, 0x26, 0x41, 0x03, 0x82, 0x42],
   [0x11, 0x81, 0x91, 0x77, 0x21, 0x46, 0x46, 0x0e],
   [0x28, 0x29, 0x91, 0xf9, 0x4f, 0x05, 0x9c, 0xe1],
   [0x64, 0x58, 0xec, 0xfe, 0x29, 0x0b, 0xb7, 0x62],
   [0x52, 0xd5, 0xcf, 0x95, 0x8e, 0xeb, 0xb1, 0x5c],
   [0xa4, 0xc2, 0xf9, 0x20, 0x75, 0x1d, 0xbe, 0x8a]]

/-- `brainpoolP384r1_n` (src/ecp/ecp_curves.c:526-533). -/
def brainpoolP384r1_n : List (List Nat) :=
  [[0x65, 0x65, 0x04, 0xe9, 0x02, 0x32, 0x88, 0x3b],
   [0x10, 0xc3, 0x7f, 0x6b, 0xaf, 0xb6, 0x3a, 0xcf],
   [0xa7, 0x25, 0x04, 0xac, 0x6c, 0x6e, 0x16, 0x1f],
   [0xb3, 0x56, 0x54, 0xed, 0x09, 0x71, 0x2f, 0x15],
   [0xdf, 0x41, 0xe6, 0x50, 0x7e, 0x6f, 0x5d, 0x0f],
   [0x28, 0x6d, 0x38, 0xa3, 0x82, 0x1e, 0xb9, 0x8c]]

/-- `brainpoolP512r1_p` (src/ecp/ecp_curves.c:544-553). -/
def brainpoolP512r1_p : List (List Nat) :=
  [[0xf3, 0x48, 0x3a, 0x58, 0x56, 0x60, 0xaa, 0x28],
   [0x85, 0xc6, 0x82, 0x2d, 0x2f, 0xff, 0x81, 0x28],
   [0xe6, 0x80, 0xa3, 0xe6, 0x2a, 0xa1, 0xcd, 0xae],
   [0x42, 0x68, 0xc6, 0x9b, 0x00, 0x9b, 0x4d, 0x7d],
   [0x71, 0x08, 0x33, 0x70, 0xca, 0x9c, 0x63, 0xd6],
   [0x0e, 0xd2, 0xc9, 0xb3, 0xb3, 0x8d, 0x30, 0xcb],
   [0x07, 0xfc, 0xc9, 0x33, 0xae, 0xe6, 0xd4, 0x3f],
   [0x8b, 0xc4, 0xe9, 0xdb, 0xb8, 0x9d, 0xdd, 0xaa]]

/-- `brainpoolP512r1_a` (src/ecp/ecp_curves.c:554-563). -/
def brainpoolP512r1_a : Option (List (List Nat)) := some
  [[0xca, 0x94, 0xfc, 0x77, 0x4d, 0xac, 0xc1, 0xe7],
   [0xb9, 0xc7, 0xf2, 0x2b, 0xa7, 0x17, 0x11, 0x7f],
   [0xb5, 0xc8, 0x9a, 0x8b, 0xc9, 0xf1, 0x2e, 0x0a],
   [0xa1, 0x3a, 0x25, 0xa8, 0x5a, 0x5d, 0xed, 0x2d],
   [0xbc, 0x63, 0x98, 0xea, 0xca, 0x41, 0x34, 0xa8],
   [0x10, 0x16, 0xf9, 0x3d, 0x8d, 0xdd, 0xcb, 0x94],
   [0xc5, 0x4c, 0x23, 0xac, 0x45, 0x71, 0x32, 0xe2],
   [0x89, 0x3b, 0x60, 0x8b, 0x31, 0xa3, 0x30, 0x78]]

/-- `brainpoolP512r1_b` (src/ecp/ecp_curves.c:564-573). -/
def brainpoolP512r1_b : List (List Nat) :=
  [[0x23, 0xf7, 0x16, 0x80, 0x63, 0xbd, 0x09, 0x28],
   [0xdd, 0xe5, 0xba, 0x5e, 0xb7, 0x50, 0x40, 0x98],
   [0x67, 0x3e, 0x08, 0xdc, 0xca, 0x94, 0xfc, 0x77],
   [0x4d, 0xac, 0xc1, 0xe7, 0xb9, 0xc7, 0xf2, 0x2b],
   [0xa7, 0x17, 0x11, 0x7f, 0xb5, 0xc8, 0x9a, 0x8b],
   [0xc9, 0xf1, 0x2e, 0x0a, 0xa1, 0x3a, 0x25, 0xa8],
   [0x5a, 0x5d, 0xed, 0x2d, 0xbc, 0x63, 0x98, 0xea],
   [0xca, 0x41, 0x34, 0xa8, 0x10, 0x16, 0xf9, 0x3d]]

/-- `brainpoolP512r1_gx` (src/ecp/ecp_curves.c:574-583). -/
def brainpoolP512r1_gx : List (List Nat) :=
  [[0x22, 0xf8, 0xb9, 0xbc, 0x09, 0x22, 0x35, 0x8b],
   [0x68, 0x5e, 0x6a, 0x40, 0x47, 0x50, 0x6d, 0x7c],
   [0x5f, 0x7d, 0xb9, 0x93, 0x7b, 0x68, 0xd1, 0x50],
   [0x8d, 0xd4, 0xd0, 0xe2, 0x78, 0x1f, 0x3b, 0xff],
   [0x8e, 0x09, 0xd0, 0xf4, 0xee, 0x62, 0x3b, 0xb4],
   [0xc1, 0x16, 0xd9, 0xb5, 0x70, 0x9f, 0xed, 0x85],
   [0x93, 0x6a, 0x4c, 0x9c, 0x2e, 0x32, 0x21, 0x5a],
   [0x64, 0xd9, 0x2e, 0xd8, 0xbd, 0xe4, 0xae, 0x81]]

/-- `brainpoolP512r1_gy` (src/ecp/ecp_curves.c:584-593). -/
def brainpoolP512r1_gy : List (List Nat) :=
  [[0x92, 0x08, 0xd8, 0x3a, 0x0f, 0x1e, 0xcd, 0x78],
   [0x06, 0x54, 0xf0, 0xa8, 0x2f, 0x2b, 0xca, 0xd1],
   [0xae, 0x63, 0x27, 0x8a, 0xd8, 0x4b, 0xca, 0x5b],
   [0x5e, 0x48, 0x5f, 0x4a, 0x49, 0xde, 0xdc, 0xb2],
   [0x11, 0x81, 0x1f, 0x88, 0x5b, 0xc5, 0x00, 0xa0],
   [0x1a, 0x7b, 0xa5, 0x24, 0x00, 0xf7, 0x09, 0xf2],
   [0xfd, 0x22, 0x78, 0xcf, 0xa9, 0xbf, 0xea, 0xc0],
   [0xec, 0x32, 0x63, 0x56, 0x5d, 0x38, 0xde, 0x7d]]

/-- `brainpoolP512r1_n` (src/ecp/ecp_curves.c:594-603). -/
def brainpoolP512r1_n : List (List Nat) :=
  [[0x69, 0x00, 0xa9, 0x9c, 0x82, 0x96, 0x87, 0xb5],
   [0xdd, 0xda, 0x5d, 0x08, 0x81, 0xd3, 0xb1, 0x1d],
   [0x47, 0x10, 0xac, 0x7f, 0x19, 0x61, 0x86, 0x41],
   [0x19, 0x26, 0xa9, 0x4c, 0x41, 0x5c, 0x3e, 0x55],
   [0x70, 0x08, 0x33, 0x70, 0xca, 0x9c, 0x63, 0xd6],
   [0x0e, 0xd2, 0xc9, 0xb3, 0xb3, 0x8d, 0x30, 0xcb],
   [0x07, 0xfc, 0xc9, 0x33, 0xae, 0xe6, 0xd4, 0x3f],
   [0x8b, 0xc4, 0xe9, 0xdb, 0xb8, 0x9d, 0xdd, 0xaa]]

/-- `ecp_grp_load` (src/ecp/ecp_curves.c:616-639): without a table for `a` it is -3. -/
def ecpGrpLoad (w : Nat) (p : List (List Nat)) (a : Option (List (List Nat))) (b gx gy n : List (List Nat)) : Grp :=
  { p := mpiLoad w p
    a := match a with
      | some a => mpiLoad w a
      | none => ⟨true, [3]⟩
    b := mpiLoad w b
    g := ⟨mpiLoad w gx, mpiLoad w gy, ⟨false, [1]⟩⟩
    n := mpiLoad w n }

/-- `cry_ecp_grp_load` (src/ecp/ecp_curves.c:649-714), with the numbers of include/cry/ecp.h:10-21; `none` is the error for
an unknown group. -/
def grpLoad (w : Nat) (id : Int) : Option Grp :=
  if id = 0 then some (ecpGrpLoad w secp192r1_p secp192r1_a secp192r1_b secp192r1_gx secp192r1_gy secp192r1_n)
  else if id = 1 then some (ecpGrpLoad w secp224r1_p secp224r1_a secp224r1_b secp224r1_gx secp224r1_gy secp224r1_n)
  else if id = 2 then some (ecpGrpLoad w secp256r1_p secp256r1_a secp256r1_b secp256r1_gx secp256r1_gy secp256r1_n)
  else if id = 3 then some (ecpGrpLoad w secp384r1_p secp384r1_a secp384r1_b secp384r1_gx secp384r1_gy secp384r1_n)
  else if id = 4 then some (ecpGrpLoad w secp521r1_p secp521r1_a secp521r1_b secp521r1_gx secp521r1_gy secp521r1_n)
  else if id = 5 then some (ecpGrpLoad w secp192k1_p secp192k1_a secp192k1_b secp192k1_gx secp192k1_gy secp192k1_n)
  else if id = 6 then some (ecpGrpLoad w secp224k1_p secp224k1_a secp224k1_b secp224k1_gx secp224k1_gy secp224k1_n)
  else if id = 7 then some (ecpGrpLoad w secp256k1_p secp256k1_a secp256k1_b secp256k1_gx secp256k1_gy secp256k1_n)
  else if id = 8 then some (ecpGrpLoad w brainpoolP256r1_p brainpoolP256r1_a brainpoolP256r1_b brainpoolP256r1_gx brainpoolP256r1_gy brainpoolP256r1_n)
  else if id = 9 then some (ecpGrpLoad w brainpoolP384r1_p brainpoolP384r1_a brainpoolP384r1_b brainpoolP384r1_gx brainpoolP384r1_gy brainpoolP384r1_n)
  else if id = 10 then some (ecpGrpLoad w brainpoolP512r1_p brainpoolP512r1_a brainpoolP512r1_b brainpoolP512r1_gx brainpoolP512r1_gy brainpoolP512r1_n)
  else none

end Verif.Ecp
