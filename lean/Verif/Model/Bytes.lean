import Verif.Model.MemXor
/-!
# Model of the byte-order macros (src/misc.h)
-/
namespace Verif

/-- `CRY_READ32_BE` (src/misc.h:81-85) of four consecutive bytes. -/
def read32be (a b c d : Byte) : BitVec 32 :=
  (a.setWidth 32 <<< 24) ||| (b.setWidth 32 <<< 16) ||| (c.setWidth 32 <<< 8) ||| d.setWidth 32

/-- `CRY_READ32_LE` (src/misc.h:74-78). -/
def read32le (a b c d : Byte) : BitVec 32 :=
  (d.setWidth 32 <<< 24) ||| (c.setWidth 32 <<< 16) ||| (b.setWidth 32 <<< 8) ||| a.setWidth 32

/-- `CRY_WRITE32_BE` (src/misc.h:66-71): the four bytes written. -/
def write32be (v : BitVec 32) : List Byte :=
  [(v >>> 24 &&& 0xff#32).setWidth 8, (v >>> 16 &&& 0xff#32).setWidth 8,
    (v >>> 8 &&& 0xff#32).setWidth 8, (v &&& 0xff#32).setWidth 8]

/-- `CRY_WRITE32_LE` (src/misc.h:58-63). -/
def write32le (v : BitVec 32) : List Byte :=
  [(v &&& 0xff#32).setWidth 8, (v >>> 8 &&& 0xff#32).setWidth 8,
    (v >>> 16 &&& 0xff#32).setWidth 8, (v >>> 24 &&& 0xff#32).setWidth 8]

/-- `CRY_READ64_BE` (src/misc.h:123-131). -/
def read64be (a b c d e f g h : Byte) : BitVec 64 :=
  (a.setWidth 64 <<< 56) ||| (b.setWidth 64 <<< 48) ||| (c.setWidth 64 <<< 40) ||| (d.setWidth 64 <<< 32) |||
  (e.setWidth 64 <<< 24) ||| (f.setWidth 64 <<< 16) ||| (g.setWidth 64 <<< 8) ||| h.setWidth 64

/-- `CRY_WRITE64_BE` (src/misc.h:100-109). -/
def write64be (v : BitVec 64) : List Byte :=
  [(v >>> 56 &&& 0xff#64).setWidth 8, (v >>> 48 &&& 0xff#64).setWidth 8,
    (v >>> 40 &&& 0xff#64).setWidth 8, (v >>> 32 &&& 0xff#64).setWidth 8,
    (v >>> 24 &&& 0xff#64).setWidth 8, (v >>> 16 &&& 0xff#64).setWidth 8,
    (v >>> 8 &&& 0xff#64).setWidth 8, (v &&& 0xff#64).setWidth 8]

end Verif
