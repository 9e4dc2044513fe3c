import Verif.Model.Modes.Cfb
/-!
# Model of CTR (src/crypt/ctr.c) and of the big-endian increment (src/misc.h)

The counter is the list of its first `ctrlen` bytes (the other bytes of the 16-byte array are not used).
-/
namespace Verif.Modes

/-- The inner loop of `CRY_INCREMENT_BE` (src/misc.h:31), entered with `__i = i`; decrementing index 0
wraps and writes outside the value (`none`). -/
def incCarry : Nat → List Byte → Option (List Byte)
  | 0, _ => none
  | i + 1, v =>
    let v := v.modify i (· + 1)
    if v[i]? = some 0 ∧ i > 0 then incCarry i v else some v

/-- `CRY_INCREMENT_BE` (src/misc.h:28-32). -/
def incBE (v : List Byte) (size : Nat) : Option (List Byte) :=
  match size with
  | 0 => none
  | i + 1 =>
    let v := v.modify i (· + 1)
    if v[i]? = some 0 then incCarry i v else some v

/-- The loop of src/crypt/ctr.c:54-58, counting down from `n`; `k` bounds its turns (`n` is enough unless
`ctrlen = 0`).  Gives the counters written, the next counter and the rest of `n`. -/
def ctrFillDown (c : Nat) : Nat → Nat → List Byte → Option (List Byte × List Byte × Nat)
  | k, n, ctr =>
    if n ≥ c then
      match k with
      | 0 => none
      | k + 1 =>
        match incBE ctr c with
        | none => none
        | some ctr' =>
          match ctrFillDown c k (n - c) ctr' with
          | none => none
          | some (p, v, r) => some (ctr.take c ++ p, v, r)
    else some ([], ctr, n)

/-- The loop of src/crypt/ctr.c:71-75 (`k` turns). -/
def ctrFill (c : Nat) : Nat → List Byte → Option (List Byte × List Byte)
  | 0, ctr => some ([], ctr)
  | k + 1, ctr =>
    match incBE ctr c with
    | none => none
    | some ctr' =>
      match ctrFill c k ctr' with
      | none => none
      | some (p, v) => some (ctr.take c ++ p, v)

/-- The loop of src/crypt/ctr.c:85-89, counting up to `len`; gives the counters written, the next counter
and the final `n`. -/
def ctrFillUp (c len : Nat) : Nat → Nat → List Byte → Option (List Byte × List Byte × Nat)
  | k, n, ctr =>
    if n < len then
      match k with
      | 0 => none
      | k + 1 =>
        match incBE ctr c with
        | none => none
        | some ctr' =>
          match ctrFillUp c len k (n + c) ctr' with
          | none => none
          | some (p, v, r) => some (ctr.take c ++ p, v, r)
    else some ([], ctr, n)

/-- `cry_ctr_encrypt` for `src != dst` (src/crypt/ctr.c:52-67): output and next counter. -/
def ctrOut (E : List Byte → List Byte) (c : Nat) (ctr src : List Byte) :
    Option (List Byte × List Byte) :=
  match ctrFillDown c src.length src.length ctr with
  | none => none
  | some (p, ctr, n) =>
    let dst := mxor (ecb E c p) (src.take (src.length - n))
    if n ≠ 0 then
      let buf := ecb E c (ctr.take c)
      match incBE ctr c with
      | none => none
      | some ctr => some (dst ++ mxor (src.drop (src.length - n)) buf, ctr)
    else some (dst, ctr)

/-- `cry_ctr_encrypt` for `src == dst` (src/crypt/ctr.c:68-93), `k` bounding the turns; `buf` is the 64-byte
local buffer, with whatever it held before.  The cipher must be called on whole blocks, so `c` has to
divide 64 (else `none`); filling more than 64 bytes is a buffer overflow (`none`). -/
def ctrInLoop (E : List Byte → List Byte) (c : Nat) :
    Nat → List Byte → List Byte → List Byte → Option (List Byte × List Byte)
  | k, buf, ctr, src =>
    if src.length ≥ 64 then
      match k with
      | 0 => none
      | k + 1 =>
        match ctrFill c 4 ctr with
        | none => none
        | some (p, ctr) =>
          if p.length > 64 ∨ ¬ c ∣ 64 then none
          else
            let buf := ecb E c (wr buf 0 p)
            match ctrInLoop E c k buf ctr (src.drop 64) with
            | none => none
            | some (dst, v) => some (mxor (src.take 64) buf ++ dst, v)
    else if src.length ≠ 0 then
      match ctrFillUp c src.length src.length 0 ctr with
      | none => none
      | some (p, ctr, n) =>
        if p.length > 64 then none
        else some (mxor src (ecb E c ((wr buf 0 p).take n)), ctr)
    else some ([], ctr)

def ctrIn (E : List Byte → List Byte) (c : Nat) (junk ctr src : List Byte) :
    Option (List Byte × List Byte) :=
  ctrInLoop E c src.length junk ctr src

end Verif.Modes
