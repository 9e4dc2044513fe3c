import Verif.Model.Crypt.CrcTables
/-!
# Model of the CRC code (src/crc/*.c)
-/
namespace Verif.Crc

/-- `struct cry_crc16_ctx` and `struct cry_crc32_ctx` (include/cry/crc.h:25-42); the two flags are kept apart. -/
structure Ctx (n : Nat) where
  tab : List (BitVec n)
  crc : BitVec n
  compl : Bool
  swap : Bool

/-- `cry_crc16_update`, `cry_crc32_update` (src/crc/crc16.c:11-16, src/crc/crc32.c:11-16).  Every table has 256
entries, so the default of `getD` is not used. -/
def update {n} (c : Ctx n) : List Byte → Ctx n
  | [] => c
  | b :: buf => 
    let v := c.tab.getD ((b.setWidth n ^^^ c.crc) &&& 0xFF#n).toNat 0 ^^^ (c.crc >>> 8)
    update { c with crc := v } buf

/-- `cry_crc16_final` (src/crc/crc16.c:18-25). -/
def final16 (c : Ctx 16) : BitVec 16 :=
  let v := if c.compl then c.crc ^^^ 0xFFFF#16 else c.crc
  if c.swap then (v <<< 8) ||| (v >>> 8) else v

/-- `cry_crc32_final` (src/crc/crc32.c:18-28). -/
def final32 (c : Ctx 32) : BitVec 32 :=
  let v := if c.compl then c.crc ^^^ 0xFFFFFFFF#32 else c.crc
  if c.swap then (v &&& 0x000000ff#32) <<< 24 ||| (v &&& 0x0000ff00#32) <<< 8 |||
    (v &&& 0x00ff0000#32) >>> 8 ||| (v &&& 0xff000000#32) >>> 24 else v

/-- `cry_crc16_digest` (src/crc/crc16.c:27-34). -/
def digest16 (c : Ctx 16) : List Byte :=
  let v := final16 c
  [(v >>> 8).setWidth 8, (v &&& 0xFF#16).setWidth 8]

/-- `cry_crc32_digest` (src/crc/crc32.c:30-39). -/
def digest32 (c : Ctx 32) : List Byte :=
  let v := final32 c
  [(v >>> 24).setWidth 8, (v >>> 16).setWidth 8, (v >>> 8).setWidth 8, (v &&& 0xFF#32).setWidth 8]

/-- `cry_crc16_ccitt_init` (src/crc/crc16_ccitt.c:40-46). -/
def ccittInit : Ctx 16 := ⟨ccittTab, 0xFFFF#16, true, true⟩
/-- `cry_crc16_dnp_init` (src/crc/crc16_dnp.c:40-46). -/
def dnpInit : Ctx 16 := ⟨dnpTab, 0x0000#16, true, true⟩
/-- `cry_crc16_ibm_init` (src/crc/crc16_ibm.c:40-45). -/
def ibmInit : Ctx 16 := ⟨ibmTab, 0xFFFF#16, false, false⟩
/-- `cry_crc32_eth_init` (src/crc/crc32_eth.c:70-73). -/
def ethInit : Ctx 32 := ⟨ethTab, 0xFFFFFFFF#32, true, false⟩

/-- `cry_crc16_ccitt` (src/crc/crc16_ccitt.c:48-57). -/
def ccitt (msg : List Byte) : BitVec 16 := final16 (update ccittInit msg)
/-- `cry_crc16_dnp` (src/crc/crc16_dnp.c:48-57). -/
def dnp (msg : List Byte) : BitVec 16 := final16 (update dnpInit msg)
/-- `cry_crc16_ibm` (src/crc/crc16_ibm.c:47-56). -/
def ibm (msg : List Byte) : BitVec 16 := final16 (update ibmInit msg)
/-- `cry_crc32_eth` (src/crc/crc32_eth.c:75-82). -/
def eth (msg : List Byte) : BitVec 32 := final32 (update ethInit msg)

end Verif.Crc
