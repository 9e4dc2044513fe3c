import Verif.Model.Modes.Cfb
/-!
# Model of CMAC (src/crypt/cmac.c) and HMAC (src/crypt/hmac.c)
-/
namespace Verif.Modes

/-- The shift loop (src/crypt/cmac.c:26-30, 35-39): byte `i` takes in the top bit of byte `i+1`. -/
def shl1 : List Byte → List Byte
  | [] => []
  | [b] => [b <<< 1]
  | b :: c :: l => (if c &&& 0x80 ≠ 0 then b <<< 1 ||| 1 else b <<< 1) :: shl1 (c :: l)

/-- One subkey from the previous value (src/crypt/cmac.c:25-32, 34-41). -/
def subkey (k : List Byte) : List Byte :=
  let msb := k.headD 0 &&& 0x80
  let k := shl1 k
  if msb ≠ 0 then k.modify 15 (· ^^^ 0x87) else k

/-- `struct cry_cmac_ctx` (include/cry/cmac.h:20-26) without the cipher. -/
structure Cmac where
  blklen : Nat
  blk : List Byte
  mac : List Byte
deriving DecidableEq

/-- `cry_cmac_init` (src/crypt/cmac.c:44-52). -/
def cmacInit : Cmac := ⟨0, List.replicate 16 0, List.replicate 16 0⟩

/-- The loop of `cry_cmac_update` (src/crypt/cmac.c:80-84), `n` turns. -/
def cmacLoop (E : List Byte → List Byte) : Nat → List Byte → List Byte → List Byte
  | 0, mac, _ => mac
  | n + 1, mac, data => cmacLoop E n (E (mxor mac (data.take 16))) (data.drop 16)

/-- The part after the pending block (src/crypt/cmac.c:74-91). -/
def cmacRest (E : List Byte → List Byte) (c : Cmac) (data : List Byte) : Cmac :=
  let n := (data.length + 15) / 16
  if n = 0 then c
  else
    let n := n - 1
    let mac := cmacLoop E n c.mac data
    let bl := data.length % 16
    let bl := if bl = 0 then 16 else bl
    ⟨bl, wr c.blk 0 ((data.drop (16 * n)).take bl), mac⟩

/-- `cry_cmac_update` (src/crypt/cmac.c:54-91). -/
def cmacUpdate (E : List Byte → List Byte) (c : Cmac) (data : List Byte) : Cmac :=
  if c.blklen > 0 then
    let n := min data.length (16 - c.blklen)
    let blk := wr c.blk c.blklen (data.take n)
    let data := data.drop n
    let bl := c.blklen + n
    if bl < 16 ∨ data.length = 0 then ⟨bl, blk, c.mac⟩
    else cmacRest E ⟨bl, blk, E (mxor c.mac blk)⟩ data
  else cmacRest E c data

/-- `cry_cmac_digest` (src/crypt/cmac.c:102-121). -/
def cmacDigest (E : List Byte → List Byte) (c : Cmac) : List Byte :=
  let k1 := subkey (E (List.replicate 16 0))
  let k2 := subkey k1
  let last :=
    if c.blklen = 16 then mxor c.blk k1
    else mxor (c.blk.take c.blklen ++ [0x80] ++ List.replicate (16 - (c.blklen + 1)) 0) k2
  E (mxor c.mac last)

/-- A hash interface (include/cry/hash.h:54-59) on contexts `σ`; `clear` has no effect on results because
every use is followed by `init`. -/
structure HashItf (σ : Type) where
  init : σ
  update : σ → List Byte → σ
  digest : σ → List Byte

/-- `struct cry_hmac_ctx` (include/cry/hmac.h:13-19): hash context and key. -/
structure Hmac (σ : Type) where
  hash : σ
  hashLen : Nat
  key : List Byte

/-- The pad loops (src/crypt/hmac.c:31-32, 54-55). -/
def hmacPad (x : Byte) (key : List Byte) : List Byte :=
  mxor ((List.replicate 64 x).take key.length) key ++ (List.replicate 64 x).drop key.length

/-- `cry_hmac_init` (src/crypt/hmac.c:6-36).  A digest of another length than `hash_len` (which the caller
must pass) would leave stale bytes in the key (`none`), as would one longer than the key field. -/
def hmacInit {σ : Type} (h : HashItf σ) (hashLen : Nat) (key : List Byte) : Option (Hmac σ) :=
  if key.length ≤ 64 then
    some ⟨h.update h.init (hmacPad 0x36 key), hashLen, key⟩
  else
    let k := h.digest (h.update h.init key)
    if k.length ≠ hashLen ∨ hashLen > 64 then none
    else some ⟨h.update h.init (hmacPad 0x36 k), hashLen, k⟩

/-- `cry_hmac_update` (src/crypt/hmac.c:38-41). -/
def hmacUpdate {σ : Type} (h : HashItf σ) (c : Hmac σ) (d : List Byte) : Hmac σ :=
  { c with hash := h.update c.hash d }

/-- `cry_hmac_digest` (src/crypt/hmac.c:43-63). -/
def hmacDigest {σ : Type} (h : HashItf σ) (c : Hmac σ) : List Byte :=
  let mac := h.digest c.hash
  h.digest (h.update (h.update h.init (hmacPad 0x5c c.key)) (mac.take c.hashLen))

end Verif.Modes
