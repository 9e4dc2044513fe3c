import Verif.Model.Ram.Core
import Verif.Model.Crypt.Aes
import Verif.Model.Crypt.Des
/-!
# AES and DES on buffers in memory (src/crypt/aes.c, src/crypt/des.c)

Source and destination lie in the flat memory and may overlap in any way; every access to them is made one after the other as
in the code.  The context and the local arrays do not lie in it, as nobody else reaches them.
-/
namespace Verif.Ram

/-- `CRY_READ32_LE(w, s)` (src/misc.h:74-78). -/
def loadWord (R : Ram) (s : Nat) : Option (BitVec 32) :=
  (load R (s + 3)).bind fun b3 => (load R (s + 2)).bind fun b2 => (load R (s + 1)).bind fun b1 => (load R s).map fun b0 => read32le b0 b1 b2 b3

/-- `CRY_WRITE32_LE(v, d)` (src/misc.h:58-63), highest byte first. -/
def storeWord (R : Ram) (d : Nat) (v : BitVec 32) : Option Ram :=
  (store R (d + 3) ((v >>> 24 &&& 0xff#32).setWidth 8)).bind fun R => (store R (d + 2) ((v >>> 16 &&& 0xff#32).setWidth 8)).bind fun R =>
    (store R (d + 1) ((v >>> 8 &&& 0xff#32).setWidth 8)).bind fun R => store R d ((v &&& 0xff#32).setWidth 8)

/-- The four words of a block, combined with the first round key (src/crypt/aes.c:424-432, 474-482). -/
def aesLoad (c : Aes.Ctx) (R : Ram) (s : Nat) : Option Aes.W :=
  (loadWord R s).bind fun w0 => (loadWord R (s + 4)).bind fun w1 => (loadWord R (s + 8)).bind fun w2 => (loadWord R (s + 12)).map fun w3 =>
    ⟨w0 ^^^ c.key 0, w1 ^^^ c.key 1, w2 ^^^ c.key 2, w3 ^^^ c.key 3⟩

/-- The four words of a block are written, the third before the second (src/crypt/aes.c:450-453, 500-503). -/
def aesStore (R : Ram) (d : Nat) (t : Aes.W) : Option Ram :=
  (storeWord R d t.w0).bind fun R => (storeWord R (d + 8) t.w2).bind fun R => (storeWord R (d + 4) t.w1).bind fun R => storeWord R (d + 12) t.w3

/-- One turn of the loop of `cry_aes_encrypt` (src/crypt/aes.c:423-453). -/
def aesEncTurn (c : Aes.Ctx) (R : Ram) (d s : Nat) : Option Ram :=
  (aesLoad c R s).bind fun w =>
    let w := Aes.encRounds c (c.nr - 1) 1 w
    aesStore R d ⟨Aes.final Aes.fsbox w.w0 w.w1 w.w2 w.w3 ^^^ c.key (4 * c.nr), Aes.final Aes.fsbox w.w1 w.w2 w.w3 w.w0 ^^^ c.key (4 * c.nr + 1),
      Aes.final Aes.fsbox w.w2 w.w3 w.w0 w.w1 ^^^ c.key (4 * c.nr + 2), Aes.final Aes.fsbox w.w3 w.w0 w.w1 w.w2 ^^^ c.key (4 * c.nr + 3)⟩

/-- One turn of the loop of `cry_aes_decrypt` (src/crypt/aes.c:473-503). -/
def aesDecTurn (c : Aes.Ctx) (R : Ram) (d s : Nat) : Option Ram :=
  (aesLoad c R s).bind fun w =>
    let w := Aes.decRounds c (c.nr - 1) 1 w
    aesStore R d ⟨Aes.final Aes.rsbox w.w0 w.w3 w.w2 w.w1 ^^^ c.key (4 * c.nr), Aes.final Aes.rsbox w.w1 w.w0 w.w3 w.w2 ^^^ c.key (4 * c.nr + 1),
      Aes.final Aes.rsbox w.w2 w.w1 w.w0 w.w3 ^^^ c.key (4 * c.nr + 2), Aes.final Aes.rsbox w.w3 w.w2 w.w1 w.w0 ^^^ c.key (4 * c.nr + 3)⟩

/-- The loop `while (size >= 16)` (src/crypt/aes.c:423-458, 473-508). -/
def aesLoop (turn : Ram → Nat → Nat → Option Ram) (R : Ram) (d s n : Nat) : Option Ram :=
  if 16 ≤ n then (turn R d s).bind fun R => aesLoop turn R (d + 16) (s + 16) (n - 16) else some R
termination_by n
decreasing_by omega

/-- `cry_aes_encrypt` (src/crypt/aes.c:411-459). -/
def aesEncrypt (c : Aes.Ctx) (R : Ram) (d s n : Nat) : Option (Ram × Aes.Ctx) :=
  let c := if c.dec then { Aes.keyInvert c with dec := false } else c
  (aesLoop (aesEncTurn c) R d s n).map fun R => (R, c)

/-- `cry_aes_decrypt` (src/crypt/aes.c:461-509). -/
def aesDecrypt (c : Aes.Ctx) (R : Ram) (d s n : Nat) : Option (Ram × Aes.Ctx) :=
  let c := if c.dec then c else { Aes.keyInvert c with dec := true }
  (aesLoop (aesDecTurn c) R d s n).map fun R => (R, c)

/-- `permute(ip_block, src, ip_tab, 8)` (src/crypt/des.c:148-158, 225): the source in memory, bit by bit. -/
def desRead (R : Ram) (s : Nat) : Option (List Byte) :=
  (List.range 64).foldlM (fun blk i => (load R (s + (Des.ipTab.getD i 0 - 1) / 8)).map fun b =>
    if (b &&& (0x80#8 >>> ((Des.ipTab.getD i 0 - 1) % 8))) != 0 then Des.setBit blk i else blk) (List.replicate 8 0)

/-- `permute(dst, ip_block, fp_tab, 8)` (src/crypt/des.c:148-158, 300): the destination in memory; it is cleared first, then
bits are set one after the other. -/
def desWrite (R : Ram) (d : Nat) (blk : List Byte) : Option Ram :=
  if R.Owned d 8 then
    (List.range 64).foldlM (fun R i => if Des.getBit blk (Des.fpTab.getD i 0 - 1) then
      (load R (d + i / 8)).bind fun b => store R (d + i / 8) (b ||| (0x80#8 >>> (i % 8))) else some R) (R.put d (List.replicate 8 0))
  else none

/-- `des_block_operate` (src/crypt/des.c:212-301). -/
def desOperate (R : Ram) (d s : Nat) (key : List Byte) (encrypt : Bool) : Option Ram :=
  (desRead R s).bind fun block =>
    let st := (List.range 16).foldl (Des.roundStep encrypt) (block, Des.permute key Des.pc1Tab 7)
    desWrite R d (st.1.drop 4 ++ st.1.take 4)

/-- One turn of the loop of `cry_des_encrypt` (src/crypt/des.c:307-311): triple DES works on in the destination. -/
def desEncTurn (c : Des.Ctx) (R : Ram) (d s : Nat) : Option Ram :=
  (desOperate R d s (c.key.take 8) true).bind fun R =>
    if c.keylen = 24 then (desOperate R d d ((c.key.drop 8).take 8) false).bind fun R => desOperate R d d ((c.key.drop 16).take 8) true else some R

/-- One turn of the loop of `cry_des_decrypt` (src/crypt/des.c:322-328). -/
def desDecTurn (c : Des.Ctx) (R : Ram) (d s : Nat) : Option Ram :=
  if c.keylen = 24 then
    (desOperate R d s ((c.key.drop 16).take 8) false).bind fun R => (desOperate R d d ((c.key.drop 8).take 8) true).bind fun R => desOperate R d d (c.key.take 8) false
  else desOperate R d s (c.key.take 8) false

/-- The loop of `cry_des_encrypt` and `cry_des_decrypt` has ended, its behaviour is undefined, or it is still running. -/
inductive Run where
  | done (R : Ram)
  | ub
  | running

/-- The loop `while (size)` (src/crypt/des.c:306-315, 321-332), at most `f` turns of it.  `n` is the `size_t` variable `size`, from which
8 is subtracted modulo 2^64. -/
def desLoop (turn : Ram → Nat → Nat → Option Ram) : Nat → Ram → Nat → Nat → Nat → Run
  | _, R, _, _, 0 => .done R
  | 0, _, _, _, _ + 1 => .running
  | f + 1, R, d, s, n + 1 => match turn R d s with
    | none => .ub
    | some R => desLoop turn f R (d + 8) (s + 8) ((n + 1 + 2 ^ 64 - 8) % 2 ^ 64)

/-- `cry_des_encrypt` (src/crypt/des.c:303-316). -/
def desEncrypt (c : Des.Ctx) (f : Nat) (R : Ram) (d s n : Nat) : Run := desLoop (desEncTurn c) f R d s n

/-- `cry_des_decrypt` (src/crypt/des.c:318-333). -/
def desDecrypt (c : Des.Ctx) (f : Nat) (R : Ram) (d s n : Nat) : Run := desLoop (desDecTurn c) f R d s n

end Verif.Ram
