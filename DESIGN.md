# Formal model of crylib/cry

## Layout

* `properties.jsonl` – the properties, stated through the public API.
* `lean/Verif/Model/*` – executable model of the C code, one Lean definition per C
  function, each with a comment citing file and lines in /repo.
* `lean/Verif/Spec/*` – short independent specifications (standards, integer
  arithmetic, Mathlib structures), never referring to model helpers.
* `lean/Verif/Lemmas/*` – helper lemmas.
* `lean/Verif/Props/*` – the property theorems, each with a non-vacuity example.
* `MANIFEST.json` – property → theorem names and status.
* `seeded/LOG.jsonl` – mutation experiments on the model.

## Trusted base

* The Lean 4.33.0 kernel and the axioms `propext`, `Classical.choice`, `Quot.sound`.
  Nothing else: no own axioms, no `sorry`, no `native_decide`, no `bv_decide`.
  `AXIOMS.md` lists the axioms used by each theorem of the manifest.
* Faithfulness of the hand-written model to the C text (the C code is never run).
* Configuration modelled: `include/cry/config.h` as committed (Euclid inverse, Comba,
  Karatsuba and Toom-3 enabled, sliding-window ECP multiplication), LP64, no
  `CRY_ASSERT_CHECK`.
* Not modelled: time, side channels, physical memory layout (except where a property is
  about overlap of buffers), allocator failure (except in the memory model of C67 and later,
  and where a property is about it).
  Out-of-bounds access, NULL dereference, use of indeterminate values and signed overflow
  are distinct outcomes (`none`/`ub`) where a modelled function can reach them, or an explicit
  precondition of the theorem.

## Conventions

* Bytes are `BitVec 8`; buffers are lists of bytes; a function writing through a pointer
  returns the new content.
* A big integer is a sign and a little-endian list of digits in base `b`
  (`b = 2^64` in the build; the model is generic in the digit width where possible).
* A block cipher handed to a mode is an arbitrary function on blocks (for decryption an
  arbitrary left inverse), so the mode theorems hold for every cipher and key.
* Compression functions of hashes are modelled too, but streaming theorems hold for every
  compression function.
* Randomness is an explicit input.
* The memory of C78 and later (`Model/Ram`): addresses are natural numbers without wrap-around; the cipher and its key
  are a function outside of the memory; a block is read completely before the cipher writes it, which is proved of AES and DES (C102).

## Plan per property

| Id | What is modelled, how it is proved |
|----|------------------------------------|
| C01 | digit loops of add/sub; value of digit list by induction over digits; signs by case analysis |
| C02 | compare loops; lexicographic comparison from the top digit equals order of values |
| C03 | baseline, Comba, Karatsuba, Toom-3 and the dispatcher; strong induction on length |
| C04 | Comba/baseline squaring; false for a negative previous destination: negation + partial |
| C05 | long division with quotient-digit estimation; loop invariant, estimate off by at most one |
| C06 | sign wrapper; false for several sign combinations: negations + partial |
| C07 | same wrapper with NULL quotient |
| C08 | digit and bit shifts |
| C09 | square-and-multiply; induction over exponent bits |
| C10 | extended Euclid loop; Bezout invariant |
| C11 | binary gcd; false for gcd(x,0) and negative y: negations + partial |
| C12 | lcm on top of gcd/div; false in corners: negation + partial |
| C13 | Newton iteration; termination and exactness |
| C14 | byte import/export; false for a previously negative destination: negation + partial |
| C15 | string import/export; round trip; rejection false: negation + partial |
| C16 | set_int/get_int; LONG_MIN and large negative corner: negation + partial |
| C17 | rand/rand_range over all generator outputs; size claim false: negation + partial |
| C18 | trial division and Miller-Rabin over all random bases; negations + partial |
| C19 | count_bits/parity against `Nat` functions |
| C20 | list init with a failing allocator at any point |
| C21, C22 | flat memory model, all overlaps; memxor2 false in one overlap class: exact characterisation |
| C23–C27 | modes over an arbitrary block cipher; false parts (CFB, CFB8 chunks, CTR width 8) as negations |
| C28 | bit-serial multiplication related to the polynomial quotient ring in Mathlib; that it is a field by the test of Rabin, the powers being computed with the model itself |
| C29–C31 | MACs and key wrap over arbitrary cipher/hash |
| C32, C33 | AES tables, key schedule; table facts by kernel evaluation over all 256 entries; context alternation false |
| C34 | DES permutations and Feistel rounds |
| C35–C38 | streaming against padded-message specification; SHA-512 padding false for 1/8 of lengths |
| C39 | CRC tables by kernel evaluation, induction over message, linearity |
| C40–C44 | codecs and classical/stream ciphers; Trivium against the bit-serial eSTREAM definition, Hill against matrices over ZMod 256 |
| C45, C46 | generators as state machines: AES generator against AES of a counter; LFSR113 against the four trinomial recurrences |
| C47 | Diffie–Hellman over the integer-level specification of the MPI operations (`NatRep`); false for modulus 1 |
| C48, C49 | DSA sign and verify; completeness from Fermat's theorem, exact acceptance condition; no range checks, so soundness is false |
| C50, C60 | ElGamal signatures likewise |
| C51 | Model/Pk/Ecdsa.lean on top of the same specification as C55; the acceptance condition of verification is proved exactly, then completeness for the nonces for which it holds. |
| C52–C54 | Model/Pk/Rsa.lean: blocks, padding, both loops with the buffer as a list of bytes that may be unwritten. Spec/Pkcs.lean is the block format. A key is two different primes with e·d = 1 modulo lcm(p-1, q-1); Fermat for each prime and the Chinese remainder theorem. |
| C55–C57 | Model/Ecp/Ecp.lean, Model/Pk/Ecdh.lean. Spec/Ecp.lean is Mathlib's group of nonsingular points of y² = x³ + ax + b over the integers modulo p. Addition and doubling in field arithmetic, then the group law; scalar multiplication by induction over the bits with the window table. The generator of keys is a parameter: any scalars. |
| C58, C61, C62 | Model/Ecp/Curves.lean holds the byte tables; Spec/Curves.lean the published parameters. The constants are compared by kernel evaluation. Lemmas/Ecp/Ecpp.lean proves a primality test with elliptic curves (a point of large prime order modulo every prime factor), Lemmas/Ecp/Prime runs it in the kernel on certificate chains for every order n; the base point itself then certifies p and gives its order. Lemmas/Ecp/Torsion.lean: no root of the cubic, hence no point of order two, hence exactly n points. |
| C59 | extended Euclid on 64-bit words with the sign and size invariant of the coefficients |
| C63 | Model/Mpi/PrimeGen.lean; Spec/PrimeGen.lean is the wanted form of a candidate. Induction over the turns; every output of the generator is allowed, including the ones that end in undefined behaviour or in an endless test. |
| C64, C65 | Model/Pk/RsaGen.lean, Model/Pk/DsaGen.lean: the nested searches with all random bytes as parameters. Invariants of the context over the turns; a concrete run with a 512-bit modulus (Props/Pk/DsaGenRun.lean), its primes proved as for C61. |
| C66 | Props/Modes/AesModes.lean: the mode theorems applied to the block functions of keyed contexts; that a call through the interface is this block function and keeps the context is part of the theorems. |
| C67 | Model/Mem/Core.lean: the same C functions on memory: structs with sign, used, alloc and a digit array with a capacity whose digits may be unwritten, objects identified by address (so any may coincide), an allocator any of whose requests may fail, a count of live blocks. Out-of-bounds access, reading unwritten digits or members, `realloc`/`free` of memory not from the allocator are the outcome `ub`. Proved function by function by running the loops symbolically and comparing with the value-level model; the values come from C01, C02, C08. |
| C68 | Model/Mem/Mul.lean: columns, Karatsuba, Toom-3, division by three and the dispatcher on memory, locals in stack slots above those of the caller, every `if (status) goto cleanup` with the clean-up in its C order. Proved by induction on the number of digits of the operands; each recursive call is used through its own outcome (right product and capacity, or failure after a failed allocation), the arithmetic comes from C03 and C04. |
| C69 | Model/Mem/Div.lean: long division with its five temporaries and the signed division on memory. Invariants of the normalisation loop, the quotient digit loop and its correction loop over the five temporaries; each call inside is used through its proved outcome (C67, C68), so the failure of any allocation leads to the clean-up; the loops are shown to end within one turn per digit value. The arithmetic of the correction is proved on integers (Lemmas/Mem/DivArith.lean). |
| C70 | Model/Mem/NumTheory.lean: square and multiply on memory with the local `exp`. Invariant of the loop over the bits: the local holds the power of the bits read so far, reduced. |
| C71 | The same file: binary gcd on two local copies, lcm through it. Inside the gcd loop subtractions and shifts are in place and need no allocation, so the statuses that the code loses are always 0; sum of the operands decreases. |
| C72 | The same file: extended Euclid with five locals. The invariant of C13 over the values of the locals; the first turn separately, as the number to invert may be negative or larger than the modulus. Only for runs in which no allocation fails, as the code looks at no status. |
| C73 | Model/Mem/Conv.lean: Newton iteration on memory with two locals. Invariant: the local holds an upper bound of the root; it decreases, so the loop ends. |
| C74 | The same file: buffers of the caller are lists of bytes of a fixed length that may be unwritten, passed along and returned; any access outside is `ub`. Import writes the digits from the top, export the bytes from the top; both compared with the value-level model of C14. |
| C75 | The same file: hexadecimal strings are expanded in place from the end, other radices are divided out with three locals, then reversed in place. Proved against `IsNumeral` (Spec/Str.lean). |
| C76 | The same file: the allocated buffer is a fresh list of unwritten bytes. The length of a numeral is characterised by powers of the radix; `Fits` says when it is at most the allocated size. Both directions are proved. |
| C77 | The same file: digit loop with the locals `tmp` (whose single digit may be 0, not a normal number) and `base`; every status path to the clean-up. |
| C78 | `Model/Ram`: one flat memory with ownership of bytes; `memcpy` of overlapping ranges and every access outside is `none`. `cbc.c` function by function, the outcome of `malloc` and the addresses of local arrays are arguments. `Spec/Ram.lean` says what was written and that the rest is unchanged. Induction over the blocks and over the chunks of 512 (or 16) bytes; the exclusive-or of overlapping ranges comes from C22. |
| C79 | The same for `cry_cfb_crypt`: induction over the blocks, then the partial block. |
| C80 | The same for `cry_cfb8_*`: the window in the local array is the register; the inner loop is characterised byte by byte. |
| C81 | The same for `cry_ctr_encrypt`, both branches: runs of counters, the cipher over them, exclusive or. |
| C82 | Model/Mem/Ecp.lean: doubling and addition on memory, points as three consecutive numbers, the locals and the clean-up in C order, every ignored status. Proved by running the body through the outcomes of C67 to C72 in states without failing requests; the field arithmetic comes from C54 and C55. Failures that are lost are shown by runs. |
| C83 | Model/Mem/Ecp.lean: the sliding window over the digits of the scalar, the block of eight points. Invariant of the two nested loops: the local point holds the multiple by the bits read so far, the window the multiples by 8 to 15 (C56). With a failing fourth request the call is run symbolically for all arguments. |
| C84 | Model/Mem/Ecp.lean: initialisation, copying, clearing and the lists of points, through the outcomes of C67; induction on the list for the clean-up. |
| C85 | Model/Mem/Pk.lean: `cry_mpi_rand` with its buffer and the reading and writing of the top digit by index, `cry_mpi_rand_range`. The bytes of the generator are a parameter. Proved for every pattern of failing requests through C74 and C69. |
| C86 | Model/Mem/Pk.lean: signing and verifying with the macro that drops the status of a failing call. Without failing requests by running the body through C67 to C74; with a failing request by following the number of requests put so far, for all arguments. |
| C87 | Model/Mem/Pk.lean: signing and verifying with all local numbers and points, in the order in which they come into being. Without failing requests by running the body through C67 to C74 and C82 to C84; with a failing third request by running up to the clean-up, for all arguments. |
| C88 | Model/Mem/Pk.lean: the built-in groups as constant objects that own nothing, contexts as the addresses of their objects. Initialisation by running through every failing request, in the manner of C84; loading by comparing the constants with the published parameters through C58 and C61. |
| C89 | Model/Mem/Pk.lean: key generation and the two steps of ECDH, by running through C85 and C83. Each party has its own memory; equality of the secrets as coordinates, since a point has only one standard form. The life of an ECDSA context on a built-in curve by composing C88, C89 and C87. |
| C90 | Model/Mem/Pk.lean: the context as five numbers, from C67, C70 and C74. |
| C91 | Model/Mem/Pk.lean: signing and verifying with numbers and with bytes, the loop that draws the secret number by induction on the list of generator outputs. Verification also for every pattern of failing allocations: it accepts only what satisfies the equation, and undefined behaviour occurs only if a request fails. The context as four numbers. |
| C92 | Model/Ram/Gcm.lean: every call of GCM on memory, the context as 64 bytes plus the two lengths. Each call is shown to do what the call on byte strings does; sessions follow from C27. Placements that go wrong are refuted with a cipher whose output is zero. |
| C93 | Model/Ram/Stream.lean: the loops of ARC4, Trivium, the affine and the Hill cipher on memory, one access at a time. ARC4, the affine cipher and the end of Trivium are instances of one loop over bytes; for Trivium the exact set of placements that work is proved. The ciphertexts are those of C41, C42, C43 and C44's specifications. |
| C94 | Model/Ram/Base64.lean: every load and store of both functions in program order, including the characters that are read again after a store. The good placements by induction over groups against C40; all others refuted, encoding with a message of zeros, decoding with its encoding. |
| C95 | Model/Ram/Wrap.lean: every memset, memcpy, key read and block of both functions, on the AES model of C32 with its context. Loops against the lists of C31 by induction; definedness as an equivalence; lost input and key by a second memory with the same outcome. |
| C96 | Model/Mem/Prime.lean: trial division, division by two, Miller-Rabin turns, the five repetitions and the generation loop on structs in memory. Answer against Spec/MemPrime.lean (`Verdict`: table primes, small divisors, strong test by powers); loops by induction; primes pass by Fermat in `ZMod n`. |
| C97 | Model/Mem/Rsa.lean: block and whole-message encryption and decryption, verification, init and clear on structs in memory with the blocks of bytes that `malloc` and `realloc` give. Every run is related to the value-level model (C52–C54) with one more outcome for a failing allocation; results against Spec/MemRsa.lean (`RsaBlocks`, `PowerBytes`) and Spec/Pkcs.lean. |
| C98 | Model/Mpi/Config.lean, Model/Ecp/MulBin.lean: the functions selected by other options. Division: loop invariant q·b + r = a, then uniqueness of well-formed representations gives equality of objects with C05's function. Inverse: invariant U1·x + U2·m = u and V1·x + V2·m = v with coefficients that stay integral when not both are even, the final value divides both numbers; termination is `∃ N, ∀ n ≥ N`, non-termination `∀ n`. Points: double and add against Mathlib's group, as C56. Products and squares: the dispatchers with the three options as a parameter. |
| C99 | The functions of Model/Mem as they are, with an arbitrary oracle for failing requests. `SafeEnd` (Spec/MemEcp.lean): no undefined behaviour; if the call ends, frame, readable results and balance of blocks. Proof: every local is only known to be some number (`Any`); each called function is safe in that environment whether it succeeds or fails; the environment is re-established after each call (Lemmas/Mem/Safe*.lean). Endless loops are a separate outcome: `cry_mpi_inv` may not return. In point arithmetic the loop of the inverse is granted more turns than the modulus; longer runs, which only failing allocations can cause, are outside the model there, while `mem_inv_safe` holds for every number of turns. The coefficient `a` may be an un-normalised zero, as in the three k1 groups (`ReadableCoef`). For `cry_ecdsa_verify` the patterns with undefined behaviour are determined exactly. |
| C100 | `rsaKeygen` (Model/Mem/Keygen.lean) on top of `prime` of C96: members and locals as objects of the memory, the bytes of the generator as arguments. Spec/MemKeygen.lean says what a turn finds (`KeyFound`, `KeyRetry`, `KeyFail`) from the numbers drawn alone. Proof: induction on the turns left, with the invariant that `g` is not 1 (this is what makes `continue`, which jumps to the test of the old `g`, harmless). |
| C101 | `dsaKeygen` (Model/Mem/Keygen.lean): the outer loop, the searches for `p` and `g`, members and locals as objects of the memory. Spec/MemKeygen.lean says what a turn finds (`DsaFound`, `DsaRetry`) from the numbers drawn alone. Proof: induction on the turns left in each loop; the life cycle theorem joins it to signing and verifying in memory (C86). The example uses proved primes of 160 and 512 bits. |
| C102 | Model/Ram/Block.lean: every load and store of source and destination in the order of the code, words of AES, single bits of DES, the `size_t` of the DES loop modulo 2^64. Shown equal to the block-wise `cipher` used by the modes (C78 to C81, C92) for all placements; then induction over the blocks. Wrong placements: the first block written changes a byte of a later one, chosen different from the ciphertext byte, and the cipher is injective. |
| C103 | Model/Ram/Hash.lean, Model/Ram/Hmac.lean: every load and store of messages, digests, the data array of the context, the local arrays of the digest functions and the key and pad of HMAC; chaining words and counters are values. Each hash function is shown to meet one interface (`Computes` in Spec/RamHash.lean) by relating its array to the list model of C35 to C38; hashing and HMAC are then proved once for any interface, by induction over the update calls. SHA-512: `sha512Code`, FIPS 180-4 except for the case of C38. |
| C104 | Model/Ram/Cmac.lean: every load and store of `xor_128`, the shift loops (one of them in place), the padding, the copies and the cipher calls. Shown step by step to keep the arrays of the context equal to the list model of C29, by induction over blocks and update calls; the spec is the one of C29. |
| C105 | Model/Ram/Prng.lean: every load and store of the residual loop, of `CTR_INC` and of the copy from the last byte to the first, and the AES calls of C102. Each request is shown to leave the arrays equal to the state of the list model of the generator, by induction over bytes, blocks and requests; the stream is the one of the list model, FIPS 197 on a counter. |
| C106 | Model/Ram/Crc.lean: every load, store and table access of the CRC updates and digests, of the seeding and of the two output loops of LFSR113. Induction over the bytes, updates and requests; the values are the remainders of C39 and the registers of C46. |
| C107 | The model of C34. Permuted choice 1 is shown not to take parity bits; the rest from the equality with the standard's DES (C34) and, for the weak keys, from their round keys read backwards. |
| C108 | The models of C35–C38. Induction over the blocks of the padded messages, from the equality with the standards; the length field for messages of different lengths. Partial: false of SHA-512 and SHA-384, with collisions for whole classes of messages. |
| C109 | The models of C23–C27, C41 and C42, any cipher. From the equality with the textbook modes; two registers of CFB8 become equal after as many bytes as they have; induction over the blocks that follow for CFB. Partial: false of CFB decryption. |
| C110 | The models of C30 and C38. SHA-512 as the code computes it is a function of the message, so the theorem of C30 applies to it. Partial: the block of 64 bytes is not that of the standard; shown for the empty key and message. |
| C111 | The models of C47 and C57. False of the code; what it computes from such values is proved from the theorems of these and of point multiplication, which does not use the coefficient b. |
| C112 | The model of C27 with the hash key as a variable. GHASH is the value at the key of a polynomial over the field of C28 that determines the message; counted by its roots. Partial: sizes below 2^29 bytes. |
| C113 | The model of C46. The order of X modulo each of the four trinomials is computed by checked chains of squarings (Lemmas/Prng/Primitive.lean); the periods of the four registers are coprime and odd, so that the sum has the product as its period. Partial: seeds that leave a stuck register, and seeds of other sizes than 16. |
| C114 | The model of C45; from its stream, the inverse cipher of C32 and the encoding of counters. |
| C115 | The model of C39. The order of X modulo each polynomial by checked chains of squarings (Lemmas/Crypt/CrcOrder.lean), as in C113; the odd errors by the value at 1. |
| C116 | The model of ARC4 (Model/Crypt/Arc4.lean). The key loop depends on the key only through its repeated bytes; the step has an inverse, so it permutes the finitely many contexts; the predecessor of a state with y = x + 1 and 1 at y is another one. |
| C117 | The models of C39 and C106. Each bit of the final value in terms of the register and the flags; complement and exchange undo themselves. |
| C118 | The model and the standard of C42. The step of the three registers can be undone: the bit that leaves each register is a sum of bits that stay. So it permutes the finitely many states and keeps zero apart. |
| C119 | The models of C30 and C110. By their theorems the tag is that of RFC 2104 with blocks of 64 bytes; the key as used can be read off the outer input, the message off the inner one. |

## Where the code does not do what the property says

The negations are theorems; the names are in `MANIFEST.json`.

* `cry_mpi_sqr` (C04): minus the square when the destination was negative, up to 64 digits.
* `cry_mpi_div_abs`, `cry_mpi_div` (C05, C06): wrong remainder or quotient for some signs; a NULL remainder is dereferenced.
* `cry_mpi_mod_exp` (C09, C47): 1 instead of 0 for exponent 0 and modulus 1.
* `cry_mpi_gcd`, `cry_mpi_lcm` (C11, C12): gcd(x, 0) = 0; the sign of y leaks; lcm dereferences NULL for negative operands.
* `cry_mpi_load_bin`, `cry_mpi_rand` (C14, C17): keep the sign the destination had; `rand` may be too short and may write outside
  the digits.
* `cry_mpi_load_str` (C15): unknown characters count as 0.
* `cry_mpi_set_int`, `cry_mpi_get_int` (C16): overflow for LONG_MIN; out of range values accepted.
* `cry_mpi_is_prime`, `cry_mpi_prime` (C18, C63): a prime is rejected when the base is 0; the test of 1 never ends; a prime
  accepted in the last turn is reported as failure.
* `cry_memxor2` (C22): wrong for one class of overlaps.
* CBC (C23): the empty message; CFB (C24): decryption wrong from two blocks on; CFB8 (C25): short parts; CTR (C26): 8-byte
  counters in place.
* AES (C33): a context that changes direction.
* SHA-512/384 (C38): the length is left out when the message length modulo 128 is 112 or more.
* Affine, Hill (C43, C44): empty keys; partial blocks; an unchecked inverse.
* LFSR113 (C46): seeds of other lengths than 16; degenerate seeds.
* DSA, ElGamal, ECDSA verification (C49, C60, C51): no range checks.
* ECDSA signing (C51): r is not reduced modulo n; nonce 0.
* RSA (C52, C54): messages of more than one block.
* Elliptic curves (C55, C56): points of order two; negative scalars. No built-in curve has such points (C62).
* `cry_mpi_shr` (C67): a negative number shifted to zero becomes a zero with a negative sign, less than zero for `cry_mpi_cmp`.
* `cry_mpi_sqr` (C68): with a destination other than the operand and at most 64 digits the square gets the sign the destination had before; 3 squared into a −1 is −9.
* `cry_mpi_div`, `cry_mpi_mod` (C69), negative dividend: the status of the final correction of the quotient is overwritten, so a failed allocation there is reported as success; if the divisor is also the remainder it is overwritten before it is used again, −78 modulo 7 gives 0; a NULL remainder is dereferenced.
* `cry_mpi_mod_exp` (C70): the status of the initialisation of its local is lost, so that failing leads to squaring an uninitialised number.
* `cry_mpi_gcd`, `cry_mpi_lcm` (C71): an operand 0 makes `cry_mpi_lsb` read a digit that was never written. The value-level model of C11 lets that digit be anything.
* `cry_mpi_inv` (C72): no status in the loop is looked at; a failed allocation may give a wrong inverse with status 0, and when all allocations fail from then on the loop never ends (proved for any number of turns granted). Wrong, too, if the result is the object of the modulus and the coefficient is negative.
* `cry_mpi_print` (C76): allocates two characters per byte of the number, which is enough for radix 16 only; in any other radix large numbers are written past the end of the buffer (−255 and 16777215 in radix 10, 200 in radix 2).
* `cry_rsa_keygen` (C64, C100): never computes d; success after 10000 failed turns; an odd size never gives a key, and every turn then fails (C100).
* `cry_dsa_keygen` (C65): private key drawn from the wrong range.
* `cry_cbc_encrypt`, `cry_cbc_decrypt` (C78): wrong when the output overlaps the input other than as said there; decryption of less than a block subtracts the block size from 0 and runs over the address space.
* `cry_cfb_encrypt` (C79): a partial last block makes it read a whole block of the output buffer, beyond the message.
* `cry_cfb8_decrypt` (C80): after less than a block the register holds uninitialised bytes of a local array.
* `cry_ctr_encrypt` (C81): overlapping buffers lose the message; 8-byte counters in place from 64 bytes on use uninitialised bytes as counters.
* `cry_ecp_dbl`, `cry_ecp_add` (C82): a failing allocation inside the inversion gives a point off the curve with status 0; the sum of
  opposite points ignores three statuses and may leave the result as it was.
* `cry_ecp_mul` (C83): when the window cannot be allocated the status is 0 and the result object is unchanged.
* `cry_mpi_rand` (C85): reads and writes the top digit by its index even if `cry_mpi_load_bin` stored fewer digits, so leading zero bytes of the generator make it read memory that was never written; it keeps a negative sign.
* `cry_dsa_sign`, `cry_dsa_verify` (C86): the macro `CHK` jumps to the clean-up without storing the status, `res` is 0 there; a failing allocation makes verification accept anything.
* `cry_ecdsa_verify` (C87): when the list of points cannot be initialised, the clean-up still clears their coordinates, which were never initialised. `cry_ecdsa_sign` returns 0 whatever happened after the first list.
* `cry_ecdh_init` (C88) ignores the status of all four initialisations; if one fails the context holds indeterminate objects and nobody is told. `cry_ecp_grp_load` overwrites the seven numbers of a group without clearing them, so loading into the group that `cry_ecdh_init` has initialised loses seven blocks each time.
* Key generation and ECDH (C89) inherit from `cry_ecp_mul` that a window that cannot be allocated is not reported. `cry_ecdsa_keygen` may make the private key 0.
* ElGamal (C91): if the generator delivers exactly `p - 1` the secret number is 0, and `cry_mpi_gcd` of it reads an uninitialised digit.
* GCM (C92): output less than a block away from the input, or starting inside it, loses the message if there is a whole block.
* Stream and classical ciphers (C93): output starting inside the input is wrong. `cry_hill_encrypt` and `cry_hill_decrypt` write up to the next whole block, behind an output buffer of the length of the message.
* Base64 (C94): `cry_base64_encode` cannot work in place; a rejected text may leave decoded bytes in the output.
* AES key wrap (C95): neither function works in place (undefined overlap), except unwrapping of a single block; the key must not overlap the output, which is written before the key is read.
* Primality test (C96): the number 1 makes it loop for ever; a failing allocation inside the modular power is undefined behaviour; an accepted candidate of the last turn of `cry_mpi_prime` is reported as failure.
* RSA in memory (C97): an allocation failing inside the modular power is undefined behaviour in all four calls; decryption of several blocks reports success with bytes that were never written; with a modulus of eleven bytes encryption allocates for ever.
* ECDSA verification in memory (C87): when the windows of both multiplications cannot be allocated, the signature (1, 7) of a message that was never signed is accepted (`mem_ecdsa_verify_forged`).
* Binary inverse (C98, `cry_mpi_inv` without `CRY_MPI_INV_EUCLID`): it never compares the greatest common divisor with 1. For arguments that are not coprime it returns 0 with a wrong value, and for a multiple of the modulus it does not return. `cry_ecp_dbl` of a point of order two, which C55 shows to fail, would then not return either. `cry_ecp_mul` with `CRY_ECP_MUL_WIN` alone (src/ecp/ecp_mul.c:109-193) calls `cry_ecp_dbl` and `cry_ecp_add` with other parameters than they have and cannot be compiled; it is not modelled.
* Comba without Karatsuba (C98): a column of 258 products of 8-bit digits does not fit the three digits of the accumulator, so with `CRY_MPI_MUL_COMBA` as the only option and 8-bit digits products of numbers of 2064 bits are wrong (`mul_options_comba_wrong`). With the default options Comba sees at most 64 digits.
* `cry_dsa_keygen` in memory (C101): a run with two primes whose private key is larger than `q` (`mem_dsa_keygen_private`). The status of `cry_mpi_init_list` is dropped: when one of its four allocations fails, `cry_mpi_set_int` reads members never written (`mem_dsa_keygen_ub`, for all arguments).
* AES and DES (C102): output starting inside the input is wrong from two blocks on; `cry_des_encrypt` and `cry_des_decrypt` of a size that is not a multiple of 8 subtract 8 from less than 8 and run over the address space (`ram_des_runs_over`).
* HMAC (C103): with a key longer than 64 bytes and a hash of more than 64 bytes the hashed key is written past the array `key` (`ram_hmac_long`). No hash of the library is that long.
* SHA-512 and SHA-384 (C108): since the length is left out for messages of 112 to 127 bytes modulo 128, collisions are immediate: a message of 16, 48 or 80 bytes modulo 128 and the same followed by its own padding but for the last byte, which is `0x80` (`sha512_collision`). HMAC with these can be forged in the same way from one tag, without the key (`hmac_sha512_forgery`).
* CFB (C109): a changed block of ciphertext changes every block from there on, instead of two (`cfb_error_spreads`, for every one-to-one cipher).
* HMAC (C110): the block is 64 bytes whatever the hash function, so HMAC with SHA-512 and SHA-384 is not that of RFC 2104 (`hmac_sha512_wrong`). With SHA-384 the outer hash is moreover always one of those without a length (C38).
* `cry_dh_finalize`, `cry_ecdh_final` (C111): nothing received from the peer is checked. Diffie-Hellman takes 0, 1 and -1 (`dh_weak_peer`); the elliptic-curve one takes infinity (`ecdh_infinity`) and points of other curves, where a point of small order gives away the secret modulo that order (`ecdh_off_curve`).
* GCM (C112): `gcm_hash_sizes` hashes the sizes cut to 32 bits; 2^29 zero bytes in front of the associated data are not noticed under any key (`gcm_zeros`).
* LFSR113 (C113): the limits 1, 7, 15, 127 of `cry_prng_lfsr113_init` should be 2, 8, 16, 128; a word of the seed equal to one of them loses a factor of the period (`lfsr_stream_stuck`).
* AES generator (C114): the second half of the seed is only the start of the counter; programs with the same first half give overlapping streams (`prngAes_shift`).
* `cry_crc16_digest`, `cry_crc32_digest` (C117) are not repeatable: the final value is left in the context, so a second call gives the register without complement and exchange. The header does not say so.
* `cry_trivium_crypt` (C118) before the first `cry_trivium_iv_set` gives the plaintext for every key (`trivium_no_iv`); nothing reports the missing call. Keys shorter than ten bytes are taken and filled up with zeros.
* `cry_des_key_set` (C107): takes keys of any length; one of 16 bytes is used as a single DES key, without its second half (`des_short_key`). The header documents only 8 and 24.
* LFSR113 (C46, C106): a seed longer than 16 bytes makes `memset` write past the static registers.
