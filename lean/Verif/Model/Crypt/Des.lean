import Verif.Model.Crypt.DesTables
/-!
# Model of DES and triple DES (src/crypt/des.c)
-/
namespace Verif.Des

/-- `GET_BIT` (src/crypt/des.c:134-135). -/
def getBit (buf : List Byte) (bit : Nat) : Bool := (buf.getD (bit / 8) 0 &&& (0x80#8 >>> (bit % 8))) != 0

/-- `SET_BIT` (src/crypt/des.c:137-138). -/
def setBit (buf : List Byte) (bit : Nat) : List Byte :=
  buf.set (bit / 8) (buf.getD (bit / 8) 0 ||| (0x80#8 >>> (bit % 8)))

/-- `permute` (src/crypt/des.c:148-158). -/
def permute (src : List Byte) (tab : List Nat) (len : Nat) : List Byte :=
  (List.range (len * 8)).foldl (fun dst i => if getBit src (tab.getD i 0 - 1) then setBit dst i else dst)
    (List.replicate len 0)

/-- `rol` (src/crypt/des.c:166-184).  The buffer has seven bytes. -/
def rol : List Byte → List Byte
  | [b0, b1, b2, b3, b4, b5, b6] =>
    let carryLeft := (b0 &&& 0x80#8) >>> 3
    let c0 := (b0 <<< 1) ||| ((b1 &&& 0x80#8) >>> 7)
    let c1 := (b1 <<< 1) ||| ((b2 &&& 0x80#8) >>> 7)
    let c2 := (b2 <<< 1) ||| ((b3 &&& 0x80#8) >>> 7)
    let carryRight := (b3 &&& 0x08#8) >>> 3
    let c3 := (((b3 <<< 1) ||| ((b4 &&& 0x80#8) >>> 7)) &&& ~~~ 0x10#8) ||| carryLeft
    let c4 := (b4 <<< 1) ||| ((b5 &&& 0x80#8) >>> 7)
    let c5 := (b5 <<< 1) ||| ((b6 &&& 0x80#8) >>> 7)
    let c6 := (b6 <<< 1) ||| carryRight
    [c0, c1, c2, c3, c4, c5, c6]
  | l => l

/-- `ror` (src/crypt/des.c:186-203).  The buffer has seven bytes. -/
def ror : List Byte → List Byte
  | [b0, b1, b2, b3, b4, b5, b6] =>
    let carryRight := (b6 &&& 0x01#8) <<< 3
    let c6 := (b6 >>> 1) ||| ((b5 &&& 0x01#8) <<< 7)
    let c5 := (b5 >>> 1) ||| ((b4 &&& 0x01#8) <<< 7)
    let c4 := (b4 >>> 1) ||| ((b3 &&& 0x01#8) <<< 7)
    let carryLeft := (b3 &&& 0x10#8) <<< 3
    let c3 := (((b3 >>> 1) ||| ((b2 &&& 0x01#8) <<< 7)) &&& ~~~ 0x08#8) ||| carryRight
    let c2 := (b2 >>> 1) ||| ((b1 &&& 0x01#8) <<< 7)
    let c1 := (b1 >>> 1) ||| ((b0 &&& 0x01#8) <<< 7)
    let c0 := (b0 >>> 1) ||| carryLeft
    [c0, c1, c2, c3, c4, c5, c6]
  | l => l

/-- The substitution (src/crypt/des.c:262-282). -/
def subst (e : List Byte) : List Byte :=
  let x := fun i => e.getD i 0
  let sb := fun (j : Nat) (i : Byte) => (sbox.getD j []).getD i.toNat 0
  [(sb 0 ((x 0 &&& 0xFC#8) >>> 2) <<< 4) ||| sb 1 (((x 0 &&& 0x03#8) <<< 4) ||| ((x 1 &&& 0xF0#8) >>> 4)),
   (sb 2 (((x 1 &&& 0x0F#8) <<< 2) ||| ((x 2 &&& 0xC0#8) >>> 6)) <<< 4) ||| sb 3 (x 2 &&& 0x3F#8),
   (sb 4 ((x 3 &&& 0xFC#8) >>> 2) <<< 4) ||| sb 5 (((x 3 &&& 0x03#8) <<< 4) ||| ((x 4 &&& 0xF0#8) >>> 4)),
   (sb 6 (((x 4 &&& 0x0F#8) <<< 2) ||| ((x 5 &&& 0xC0#8) >>> 6)) <<< 4) ||| sb 7 (x 5 &&& 0x3F#8)]

/-- The local `memxor` (src/crypt/des.c:205-210). -/
def mxor (a b : List Byte) : List Byte := List.zipWith (· ^^^ ·) a b

/-- The key before the subkey of a round is taken when encrypting (src/crypt/des.c:240-245). -/
def keyEnc (round : Nat) (pc1 : List Byte) : List Byte :=
  if ¬ (round ≤ 1 ∨ round = 8 ∨ round = 15) then rol (rol pc1) else rol pc1

/-- The key after the subkey of a round is taken when decrypting (src/crypt/des.c:249-254). -/
def keyDec (round : Nat) (pc1 : List Byte) : List Byte :=
  if ¬ (round ≥ 14 ∨ round = 7 ∨ round = 0) then ror (ror pc1) else ror pc1

/-- The body of the loop over the rounds (src/crypt/des.c:229-292): the block and the key. -/
def roundStep (encrypt : Bool) (st : List Byte × List Byte) (round : Nat) : List Byte × List Byte :=
  let block := st.1
  let pc1 := st.2
  let expansion := permute (block.drop 4) expTab 6
  let pc1 := if encrypt then keyEnc round pc1 else pc1
  let subkey := permute pc1 pc2Tab 6
  let pc1 := if ¬ encrypt then keyDec round pc1 else pc1
  let expansion := mxor expansion subkey
  let pbox := permute (subst expansion) pTab 4
  let recomb := mxor (block.take 4) pbox
  (block.drop 4 ++ recomb, pc1)

/-- `des_block_operate` (src/crypt/des.c:212-301). -/
def blockOperate (src key : List Byte) (encrypt : Bool) : List Byte :=
  let block := permute src ipTab 8
  let pc1 := permute key pc1Tab 7
  let st := (List.range 16).foldl (roundStep encrypt) (block, pc1)
  let block := st.1.drop 4 ++ st.1.take 4
  permute block fpTab 8

/-- `struct cry_des_ctx` (include/cry/des.h:16-19). -/
structure Ctx where
  keylen : Nat
  key : List Byte

/-- `cry_des_key_set` (src/crypt/des.c:335-343). -/
def keySet (key : List Byte) : Ctx :=
  let size := if key.length > 24 then 24 else key.length
  ⟨size, key.take size ++ List.replicate (24 - size) 0⟩

/-- One block of `cry_des_encrypt` (src/crypt/des.c:307-311). -/
def encBlock (c : Ctx) (src : List Byte) : List Byte :=
  let dst := blockOperate src (c.key.take 8) true
  if c.keylen = 24 then
    let dst := blockOperate dst ((c.key.drop 8).take 8) false
    blockOperate dst ((c.key.drop 16).take 8) true
  else dst

/-- One block of `cry_des_decrypt` (src/crypt/des.c:322-328). -/
def decBlock (c : Ctx) (src : List Byte) : List Byte :=
  if c.keylen = 24 then
    let dst := blockOperate src ((c.key.drop 16).take 8) false
    let dst := blockOperate dst ((c.key.drop 8).take 8) true
    blockOperate dst (c.key.take 8) false
  else blockOperate src (c.key.take 8) false

/-- The loops of `cry_des_encrypt` (src/crypt/des.c:303-316) and `cry_des_decrypt` (src/crypt/des.c:318-333) over `n`
or fewer blocks.  `none`: fewer than eight bytes are left, the size underflows and the loop runs past the data. -/
def loop (op : List Byte → List Byte) : Nat → List Byte → Option (List Byte)
  | _, [] => some []
  | 0, _ => none
  | n + 1, src => if src.length < 8 then none else (loop op n (src.drop 8)).map (op (src.take 8) ++ ·)

/-- `cry_des_encrypt` (src/crypt/des.c:303-316). -/
def encrypt (c : Ctx) (src : List Byte) : Option (List Byte) := loop (encBlock c) src.length src

/-- `cry_des_decrypt` (src/crypt/des.c:318-333). -/
def decrypt (c : Ctx) (src : List Byte) : Option (List Byte) := loop (decBlock c) src.length src

end Verif.Des
