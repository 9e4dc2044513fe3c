import Verif.Model.Mem.Ecp
import Verif.Model.Mem.Conv
import Verif.Model.Ecp.Curves
/-!
# Public-key functions in memory
(src/mpi/mpi_rand.c, src/crypt/dsa.c, ecdsa.c, elgamal.c, ecdh.c, src/crypt/dh.c)

The objects of a context and of a signature are given by their addresses.  The bytes that `cry_prng_aes_rand` delivers are
a parameter `bs`; the generator itself does not allocate and is modelled in `Model/Prng`.
-/
namespace Verif.Mem

/-- `cry_mpi_rand` (src/mpi/mpi_rand.c:8-34); `bin` is one block of the allocator.  Simplification: a generator that fails
(lines 21-22) is left out, `cry_prng_aes_rand` always returns 0 (src/prng/prng_aes.c:47-76). -/
def rand (w r bits : Nat) (bs : List Byte) : M Int :=
  if bits = 0 then do
    zero r
    pure 0
  else do
    if ← request 1 then
      let st ← chk (loadBin w r bs) (do
        let digs := (bits - 1) / w + 1
        let msb := bits - w * (digs - 1)
        if msb < w then
          let d ← rd r (digs - 1)
          wr r (digs - 1) (d &&& (1 <<< msb - 1))
        let d ← rd r (digs - 1)
        wr r (digs - 1) (d ||| 1 <<< (msb - 1))
        pure 0)
      release
      pure st
    else pure (-1)

/-- `cry_mpi_rand_range` (src/mpi/mpi_rand.c:36-47). -/
def randRange (w sp a max : Nat) (bs : List Byte) : M Int := do
  let n ← countBits w max
  let st ← rand w a n bs
  if st = 0 then
    if (← cmpAbs a max) ≥ 0 then mod w sp a a max else pure st
  else pure st

/-- The bytes of the message that are used: as many as the digits of the modulus `n` have (src/crypt/dsa.c:62-64, 94-96,
src/crypt/ecdsa.c:18-20, 64-66). -/
def cutMsg (w n : Nat) (msg : List Byte) : M (List Byte) := do
  let h ← hdr n
  pure (if h.used * (w / 8) < msg.length then msg.take (h.used * (w / 8)) else msg)

/-! ### DSA (src/crypt/dsa.c) -/

/-- The macro `CHK` of src/crypt/dsa.c:5 with src/misc.h:185-188: a call that fails leads to the label, but its status is
not stored, `res` is 0 from the initialisation. -/
def lose (c k : M Int) : M Int := do
  let st ← c
  if st ≠ 0 then pure 0 else k

/-- `secret_gen` (src/crypt/dsa.c:30-51); `one` with the digit `dig` at `sp`, `t` at `sp + 1`. -/
def dsaSecret (w sp k q : Nat) (bs : List Byte) : M Int := do
  decl sp 2
  setObj sp ⟨some ⟨false, 1, 0⟩, .mem false [some 1]⟩
  chk (init (sp + 1)) do
    let st ←
      lose (copy (sp + 1) q) <|
      lose (sub (2 ^ w) (sp + 1) (sp + 1) sp) do
        let n ← countBits w q
        lose (rand w k n bs) <|
        lose (mod w (sp + 2) k k (sp + 1)) <|
        lose (add (2 ^ w) k k sp) (pure 0)
    clear (sp + 1)
    pure st

/-- `cry_dsa_sign` (src/crypt/dsa.c:53-83); the signature at `r` and `s`, locals `k`, `z` at `sp`, `sp + 1`. -/
def dsaSign (w sp p q g pvt r s : Nat) (msg bs : List Byte) : M Int := do
  decl sp 2
  chk (initList [sp, sp + 1]) do
    let m ← cutMsg w q msg
    let st ←
      lose (loadBin w (sp + 1) m) <|
      lose (dsaSecret w (sp + 2) sp q bs) <|
      lose (modExp w (sp + 2) r g sp (some p)) <|
      lose (mod w (sp + 2) r r q) <|
      lose (inv w (sp + 2) sp sp q) <|
      lose (mul w (sp + 2) s pvt r) <|
      lose (add (2 ^ w) s s (sp + 1)) <|
      lose (mul w (sp + 2) s s sp) <|
      lose (mod w (sp + 2) s s q) (pure 0)
    clearList [sp, sp + 1]
    pure st

/-- `cry_dsa_verify` (src/crypt/dsa.c:85-122); locals `z`, `w`, `u1`, `u2` at `sp`, `sp + 1`, `sp + 2`, `sp + 3`. -/
def dsaVerify (w sp p q g pub r s : Nat) (msg : List Byte) : M Int := do
  decl sp 4
  chk (initList [sp, sp + 1, sp + 2, sp + 3]) do
    let m ← cutMsg w q msg
    let st ←
      lose (loadBin w sp m) <|
      lose (copy (sp + 1) s) <|
      lose (inv w (sp + 4) (sp + 1) (sp + 1) q) <|
      lose (mul w (sp + 4) sp sp (sp + 1)) <|
      lose (mod w (sp + 4) sp sp q) <|
      lose (mul w (sp + 4) (sp + 1) r (sp + 1)) <|
      lose (mod w (sp + 4) (sp + 1) (sp + 1) q) <|
      lose (modExp w (sp + 4) (sp + 2) g sp (some p)) <|
      lose (modExp w (sp + 4) (sp + 3) pub (sp + 1) (some p)) <|
      lose (mul w (sp + 4) (sp + 2) (sp + 2) (sp + 3)) <|
      lose (mod w (sp + 4) (sp + 2) (sp + 2) p) <|
      lose (mod w (sp + 4) (sp + 2) (sp + 2) q) do
        let c ← cmpAbs (sp + 2) r
        pure (if c = 0 then 0 else -1)
    clearList [sp, sp + 1, sp + 2, sp + 3]
    pure st

/-! ### ECDSA (src/crypt/ecdsa.c) -/

/-- `cry_ecdsa_sign` (src/crypt/ecdsa.c:7-50); group at `g`, private key `d`, signature at `r` and `s`; locals `k`, `z` at
`sp`, `sp + 1`, `X` at `sp + 2`, which come into being when first used.  The status of the calls is not returned
(line 49). -/
def ecdsaSign (w sp g d r s : Nat) (msg bs : List Byte) : M Int := do
  decl sp 2
  chk (initList [sp, sp + 1]) do
    decl (sp + 2) 3
    let st ← ecpInit w (sp + 2)
    if st = 0 then do
      let m ← cutMsg w (g + 6) msg
      let _ ←
        chk (loadBin w (sp + 1) m) <|
        chk (randRange w (sp + 5) sp (g + 6) bs) <|
        chk (ecpMul w (sp + 5) (sp + 2) (g + 3) sp g) do
          swap r (sp + 2)
          chk (inv w (sp + 5) sp sp (g + 6)) <|
            chk (mul w (sp + 5) s d r) <|
            chk (add (2 ^ w) s s (sp + 1)) <|
            chk (mul w (sp + 5) s s sp) <|
            chk (mod w (sp + 5) s s (g + 6)) (pure 0)
      ecpClear (sp + 2)
    clearList [sp, sp + 1]
    pure 0

/-- `cry_ecdsa_verify` (src/crypt/ecdsa.c:52-93); group at `g`, public key at `q`; locals `z`, `w`, `G`, `Q` at `sp`,
`sp + 1`, `sp + 2`, `sp + 5`, which come into being when first used. -/
def ecdsaVerify (w sp g q r s : Nat) (msg : List Byte) : M Int := do
  decl sp 2
  chk (initList [sp, sp + 1]) do
    decl (sp + 2) 6
    let st ← chk (ecpInitList w [sp + 2, sp + 5]) (do
      let m ← cutMsg w (g + 6) msg
      let st ←
        chk (loadBin w sp m) <|
        chk (copy (sp + 1) s) <|
        chk (inv w (sp + 8) (sp + 1) (sp + 1) (g + 6)) <|
        chk (mul w (sp + 8) sp sp (sp + 1)) <|
        chk (mod w (sp + 8) sp sp (g + 6)) <|
        chk (mul w (sp + 8) (sp + 1) r (sp + 1)) <|
        chk (mod w (sp + 8) (sp + 1) (sp + 1) (g + 6)) <|
        chk (ecpMul w (sp + 8) (sp + 2) (g + 3) sp g) <|
        chk (ecpMul w (sp + 8) (sp + 5) q (sp + 1) g) <|
        chk (ecpAdd w (sp + 8) (sp + 2) (sp + 2) (sp + 5) g) <|
        chk (mod w (sp + 8) (sp + 2) (sp + 2) (g + 6)) do
          let c ← cmpAbs (sp + 2) r
          pure (if c = 0 then 0 else -1)
      ecpClearList [sp + 2, sp + 5]
      pure st)
    clearList [sp, sp + 1, sp + 2, sp + 3, sp + 5, sp + 6]
    pure st

/-! ### Built-in groups (src/ecp/ecp_curves.c) -/

/-- `ecp_mpi_load` (src/ecp/ecp_curves.c:608-614): the digits are a constant; what the object held before is forgotten. -/
def ecpMpiLoad (v : Nat) (m : Mpi.Mpi) : M Unit :=
  setObj v ⟨some ⟨m.neg, m.digs.length, 0⟩, .mem false (m.digs.map some)⟩

/-- `ecp_grp_load` (src/ecp/ecp_curves.c:616-639) on the constants of a group. -/
def ecpGrpLoad (g : Nat) (c : Ecp.Grp) : M Unit := do
  ecpMpiLoad g c.p
  ecpMpiLoad (g + 1) c.a
  ecpMpiLoad (g + 2) c.b
  ecpMpiLoad (g + 3) c.g.x
  ecpMpiLoad (g + 4) c.g.y
  ecpMpiLoad (g + 5) c.g.z
  ecpMpiLoad (g + 6) c.n

/-- `cry_ecp_grp_load` (src/ecp/ecp_curves.c:649-714); the constants are those of Model/Ecp/Curves.lean. -/
def ecpGrpLoadId (w g : Nat) (id : Int) : M Int :=
  match Ecp.grpLoad w id with
  | some c => do
    ecpGrpLoad g c
    pure 0
  | none => pure (-1)

/-! ### Contexts of ECDSA -/

/-- `cry_ecdsa_init` (src/crypt/ecdsa.c:95-112) with the group made by `grp`; private key at `d`, public key at `q`. -/
def ecdsaInitWith (w d q : Nat) (grp : M Int) : M Int :=
  chk (init d) do
    let st ← chk (ecpInit w q) do
      let st ← grp
      if st ≠ 0 then do
        ecpClear q
        pure st
      else pure st
    if st ≠ 0 then do
      clear d
      pure st
    else pure st

/-- `cry_ecdsa_init` (src/crypt/ecdsa.c:95-112); group at `g`. -/
def ecdsaInit (w d q g : Nat) (id : Int) : M Int :=
  if id ≠ -1 then ecdsaInitWith w d q (ecpGrpLoadId w g id) else ecdsaInitWith w d q (ecpGrpInit w g)

/-- `cry_ecdsa_clear` (src/crypt/ecdsa.c:114-120), without the final `memset`. -/
def ecdsaClear (d q g : Nat) : M Unit := do
  clear d
  ecpClear q
  ecpGrpClear g

/-- `cry_ecdsa_keygen` (src/crypt/ecdsa.c:122-129). -/
def ecdsaKeygen (w sp d q g : Nat) (bs : List Byte) : M Int :=
  chk (randRange w sp d (g + 6) bs) (ecpMul w sp q (g + 3) d g)

/-! ### ECDH (src/crypt/ecdh.c) and Diffie-Hellman (src/crypt/dh.c) -/

/-- `cry_ecdh_init` (src/crypt/ecdh.c:3-10); group at `g`, private key at `d`, public key at `q`, secret at `z`. -/
def ecdhInit (w g d q z : Nat) : M Int :=
  ign (ecpGrpInit w g) <| ign (init d) <| ign (ecpInit w q) <| ign (ecpInit w z) (pure 0)

/-- `cry_ecdh_clear` (src/crypt/ecdh.c:12-18). -/
def ecdhClear (g d q z : Nat) : M Unit := do
  ecpGrpClear g
  clear d
  ecpClear q
  ecpClear z

/-- `cry_ecdh_agree` (src/crypt/ecdh.c:20-23). -/
def ecdhAgree (w sp g d q : Nat) : M Int := ecpMul w sp q (g + 3) d g

/-- `cry_ecdh_final` (src/crypt/ecdh.c:25-28). -/
def ecdhFinal (w sp g d q z : Nat) : M Int := ecpMul w sp z q d g

/-- `cry_dh_agree` (src/crypt/dh.c:18-21). -/
def dhAgree (w sp p g e Y : Nat) : M Int := modExp w sp Y g e (some p)

/-- `cry_dh_finalize` (src/crypt/dh.c:23-26). -/
def dhFinalize (w sp p e Y Z : Nat) : M Int := modExp w sp Z Y e (some p)

/-- `cry_memset(ctx, 0, sizeof(*ctx))` for a context consisting of numbers: pointers become null. -/
def wipe : List Nat → M Unit
  | [] => pure ()
  | v :: vs => do
    setObj v ⟨some ⟨false, 0, 0⟩, .null⟩
    wipe vs

/-- `cry_dh_init` (src/crypt/dh.c:5-9). -/
def dhInit (p g e Y Z : Nat) : M Int := initList [p, g, e, Y, Z]

/-- `cry_dh_clear` (src/crypt/dh.c:11-16). -/
def dhClear (p g e Y Z : Nat) : M Unit := do
  clearList [p, g, e, Y, Z]
  wipe [p, g, e, Y, Z]

/-- `cry_dh_get_tok` (src/crypt/dh.c:28-31) and `cry_dh_get_sec` (:38-41), with `Y` or `Z` for `v`; the buffer is `b`. -/
def dhGet (w v : Nat) (b : Buf) (len : Nat) : M (Int × Buf) := storeBin w v b 0 len true

/-- `cry_dh_set_tok` (src/crypt/dh.c:33-36). -/
def dhSetTok (w Y : Nat) (bs : List Byte) : M Int := loadBin w Y bs

/-! ### ElGamal (src/crypt/elgamal.c) -/

/-- The loop of `secret_gen` (src/crypt/elgamal.c:43-50); the generator delivers the elements of `bss` one after the other,
which are as many as the loop may go round. -/
def elgamalSecretLoop (w sp r k t one : Nat) : List (List Byte) → M Int
  | [] => pure (-1)
  | bs :: bss =>
    chk (randRange w sp k t bs) <|
    chk (gcd w sp r k t) do
      if (← cmp r one) = 0 then pure 0
      else match bss with
        -- the status of the last `cry_mpi_gcd`
        | [] => pure 0
        | _ => elgamalSecretLoop w sp r k t one bss

/-- `secret_gen` (src/crypt/elgamal.c:33-54); `r` at `sp`. -/
def elgamalSecret (w sp k t one : Nat) (bss : List (List Byte)) : M Int := do
  decl sp 1
  chk (init sp) do
    let st ← elgamalSecretLoop w (sp + 1) sp k t one bss
    clear sp
    pure st

/-- `cry_elgamal_sign2` (src/crypt/elgamal.c:56-94); locals `one`, `k`, `z`, `t` at `sp`, …, `sp + 3`.  `one.alloc` is 1
although its digit is an automatic variable; it is never written or cleared. -/
def elgamalSign2 (w sp p g d r s : Nat) (msg : List Byte) (bss : List (List Byte)) : M Int := do
  let n ← countBytes w p
  if n < msg.length then pure (-1)
  else do
    decl sp 4
    setObj sp ⟨some ⟨false, 1, 1⟩, .mem false [some 1]⟩
    chk (initList [sp + 1, sp + 2, sp + 3]) do
      let st ←
        chk (copy (sp + 3) p) <|
        chk (sub (2 ^ w) (sp + 3) (sp + 3) sp) <|
        chk (elgamalSecret w (sp + 4) (sp + 1) (sp + 3) sp bss) <|
        chk (modExp w (sp + 4) r g (sp + 1) (some p)) <|
        chk (loadBin w (sp + 2) msg) <|
        chk (mul w (sp + 4) s d r) <|
        chk (sub (2 ^ w) s (sp + 2) s) <|
        chk (mod w (sp + 4) s s (sp + 3)) <|
        chk (inv w (sp + 4) (sp + 1) (sp + 1) (sp + 3)) <|
        chk (mul w (sp + 4) s s (sp + 1)) <|
        chk (mod w (sp + 4) s s (sp + 3)) (pure 0)
      clearList [sp + 1, sp + 2, sp + 3]
      pure st

/-- `cry_elgamal_verify2` (src/crypt/elgamal.c:96-122); locals `r`, `z` at `sp`, `sp + 1`; the signature at `sr`, `ss`. -/
def elgamalVerify2 (w sp p g y sr ss : Nat) (msg : List Byte) : M Int := do
  let n ← countBytes w p
  if n < msg.length then pure (-1)
  else do
    decl sp 2
    chk (initList [sp, sp + 1]) do
      let st ←
        chk (modExp w (sp + 2) sp y sr (some p)) <|
        chk (modExp w (sp + 2) (sp + 1) sr ss (some p)) <|
        chk (mul w (sp + 2) sp sp (sp + 1)) <|
        chk (mod w (sp + 2) sp sp p) <|
        chk (loadBin w (sp + 1) msg) <|
        chk (modExp w (sp + 2) (sp + 1) g (sp + 1) (some p)) do
          let c ← cmp sp (sp + 1)
          pure (if c ≠ 0 then -1 else 0)
      clearList [sp, sp + 1]
      pure st

/-- `cry_elgamal_verify` (src/crypt/elgamal.c:144-162); `sig` are the bytes of the signature from the pointer on, `s.r`,
`s.s` at `sp`, `sp + 1`.  Fewer than twice `siz` bytes are read beyond the end. -/
def elgamalVerify (w sp p g y : Nat) (sig msg : List Byte) : M Int := do
  decl sp 2
  chk (initList [sp, sp + 1]) do
    let siz ← countBytes w p
    let st ← (if sig.length < 2 * siz then ub else
      chk (loadBin w sp (sig.take siz)) <|
      chk (loadBin w (sp + 1) ((sig.drop siz).take siz)) <|
      elgamalVerify2 w (sp + 2) p g y sp (sp + 1) msg)
    clearList [sp, sp + 1]
    pure st

/-- `cry_elgamal_sign` (src/crypt/elgamal.c:124-142); `b` is the buffer for the signature, `s.r`, `s.s` at `sp`, `sp + 1`. -/
def elgamalSign (w sp p g d : Nat) (b : Buf) (msg : List Byte) (bss : List (List Byte)) : M (Int × Buf) := do
  decl sp 2
  let st ← initList [sp, sp + 1]
  if st ≠ 0 then pure (st, b)
  else do
    let st ← elgamalSign2 w (sp + 2) p g d sp (sp + 1) msg bss
    let r ← (if st = 0 then do
        let siz ← countBytes w p
        let r ← storeBin w sp b 0 siz true
        if r.1 = 0 then storeBin w (sp + 1) r.2 siz siz true else pure r
      else pure (st, b))
    clearList [sp, sp + 1]
    pure r

/-- `cry_elgamal_init` (src/crypt/elgamal.c:164-168). -/
def elgamalInit (p d g y : Nat) : M Int := initList [p, d, g, y]

/-- `cry_elgamal_clear` (src/crypt/elgamal.c:170-174). -/
def elgamalClear (p d g y : Nat) : M Unit := do
  clearList [p, d, g, y]
  wipe [p, d, g, y]

end Verif.Mem
