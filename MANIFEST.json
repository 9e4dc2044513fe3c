{
 "claims": [
  {
   "property": "C01",
   "status": "proved",
   "theorems": [
    "Verif.Mpi.add_correct",
    "Verif.Mpi.sub_correct"
   ],
   "note": "in-place store model, all aliasings, any base"
  },
  {
   "property": "C02",
   "status": "proved",
   "theorems": [
    "Verif.Mpi.cmp_correct",
    "Verif.Mpi.cmpAbs_correct",
    "Verif.Mpi.cmp_zero_iff_eq"
   ],
   "note": "on well-formed numbers (no negative zero); cmp_negative_zero shows the side condition is needed"
  },
  {
   "property": "C03",
   "status": "proved",
   "theorems": [
    "Verif.Mpi.mul_correct",
    "Verif.Mpi.mul_routines_agree",
    "Verif.Mpi.mulDig_correct"
   ],
   "note": "all digit widths >= 8, all lengths, all recursion depths"
  },
  {
   "property": "C04",
   "status": "partial",
   "theorems": [
    "Verif.Mpi.sqr_correct_partial",
    "Verif.Mpi.sqr_magnitude",
    "Verif.Mpi.sqr_negative_wrong",
    "Verif.Mpi.sqrBaseline_correct"
   ],
   "note": "False as stated: for a distinct, previously negative destination and 1..64 digits the result is minus the square (proved for the whole class). Everything else proved."
  },
  {
   "property": "C05",
   "status": "partial",
   "theorems": [
    "Verif.Mpi.divAbs_zero",
    "Verif.Mpi.divAbs_correct_partial",
    "Verif.Mpi.divAbs_negative_wrong"
   ],
   "note": "False as stated only for a<0, |a|<|b|, where the remainder is a itself (negation proved for the whole class). Division identity, quotient and bound on |r| proved for all operands."
  },
  {
   "property": "C06",
   "status": "partial",
   "theorems": [
    "Verif.Mpi.div_zero",
    "Verif.Mpi.div_correct_iff_partial",
    "Verif.Mpi.div_nonneg_partial",
    "Verif.Mpi.div_null_remainder_ub"
   ],
   "note": "False as stated; div_correct_iff_partial gives the exact set of operands for which the code is right, div_null_remainder_ub the NULL remainder case."
  },
  {
   "property": "C07",
   "status": "proved",
   "theorems": [
    "Verif.Mpi.mod_correct",
    "Verif.Mpi.mod_zero"
   ],
   "note": "result object distinct from the modulus"
  },
  {
   "property": "C08",
   "status": "proved",
   "theorems": [
    "Verif.Mpi.shl_correct",
    "Verif.Mpi.shr_correct",
    "Verif.Mpi.shr_wf",
    "Verif.Mpi.shr_negative_zero",
    "Verif.Mpi.shld_in_place",
    "Verif.Mpi.shrd_in_place"
   ],
   "note": "truncation toward zero; a negative number shifted to zero keeps its sign flag (negative zero), stated explicitly"
  },
  {
   "property": "C09",
   "status": "partial",
   "theorems": [
    "Verif.Mpi.modExp_correct_partial",
    "Verif.Mpi.modExp_zero_one_wrong",
    "Verif.Mpi.modExp_rejects",
    "Verif.Mpi.exp_correct"
   ],
   "note": "False as stated only for e = 0 and m = 1 (result 1 instead of 0); everything else proved."
  },
  {
   "property": "C10",
   "status": "proved",
   "theorems": [
    "Verif.Mpi.inv_correct"
   ],
   "note": "result object distinct from the operands"
  },
  {
   "property": "C100",
   "status": "partial",
   "theorems": [
    "Verif.Mem.mem_rsa_keygen_partial",
    "Verif.Mem.mem_rsa_pair_size",
    "Verif.Mem.mem_rsa_keygen_odd",
    "Verif.Mem.mem_rsa_keygen_size",
    "Verif.Mem.mem_rsa_keygen_nomem"
   ],
   "note": "Exact outcome when no allocation fails and no number drawn begins with a zero digit, for sizes whose half is a positive multiple of 8 (others are refused, proved). With a random exponent a failure of one of the first four allocations is reported and changes nothing. Full claim false of the code: the private exponent is not written (it stays as it was), and 0 is also returned when 10000 turns end without a key, which for odd sizes is every run that finds primes (proved)."
  },
  {
   "property": "C101",
   "status": "partial",
   "theorems": [
    "Verif.Mem.mem_dsa_keygen_partial",
    "Verif.Mem.mem_dsa_found",
    "Verif.Mem.mem_dsa_life",
    "Verif.Mem.mem_dsa_keygen_private",
    "Verif.Mem.mem_dsa_keygen_ub"
   ],
   "note": "Exact outcome when no allocation fails and no number drawn begins with a zero digit; what the numbers found satisfy; with p and q prime every signature made with the key is accepted. Full claim false of the code: the private key is drawn below (p-1)/q instead of q (a run with two primes and a private key larger than q is given); and a failure of one of the first four allocations is undefined behaviour for all arguments, since the status of the initialisation is dropped. Not covered: failures of later allocations."
  },
  {
   "property": "C102",
   "status": "proved",
   "theorems": [
    "Verif.Ram.ram_aes_cipher",
    "Verif.Ram.ram_aes_encrypt",
    "Verif.Ram.ram_aes_decrypt",
    "Verif.Ram.ram_aes_overlap_wrong",
    "Verif.Ram.ram_aes_roundtrip",
    "Verif.Ram.ram_des_cipher",
    "Verif.Ram.ram_des_blocks",
    "Verif.Ram.ram_des_roundtrip",
    "Verif.Ram.ram_des_overlap_wrong",
    "Verif.Ram.ram_des_runs_over"
   ],
   "note": "Addresses do not wrap around; the context lies outside of the memory."
  },
  {
   "property": "C103",
   "status": "proved",
   "theorems": [
    "Verif.RamHash.ram_sha256",
    "Verif.RamHash.ram_sha1",
    "Verif.RamHash.ram_md5",
    "Verif.RamHash.ram_sha512",
    "Verif.RamHash.ram_hash_reads",
    "Verif.RamHash.ram_hmac",
    "Verif.RamHash.ram_hmac_sha256",
    "Verif.RamHash.ram_hmac_sha1",
    "Verif.RamHash.ram_hmac_md5",
    "Verif.RamHash.ram_hmac_long"
   ],
   "note": "Addresses do not wrap around. The data array of a context and the local arrays lie in the memory, the chaining words and counters are kept outside of it. SHA-512 and SHA-384: the digest is FIPS 180-4 only when fewer than 112 bytes remain after the last whole block (C38)."
  },
  {
   "property": "C104",
   "status": "proved",
   "theorems": [
    "Verif.RamCmac.ram_cmac",
    "Verif.RamCmac.ram_aes_cmac",
    "Verif.RamCmac.ram_cmac_reads"
   ],
   "note": "Addresses do not wrap around. The arrays of the context and the local arrays lie in the memory, blklen and the cipher context are kept outside of it; the call of the cipher is the block function that C102 proves of AES."
  },
  {
   "property": "C105",
   "status": "proved",
   "theorems": [
    "Verif.RamPrng.ram_prng"
   ],
   "note": "Addresses do not wrap around. The arrays ctr, lo and key lie in the memory, the AES context and ix are kept outside of it. A generator which was never seeded is the case of a null pointer."
  },
  {
   "property": "C106",
   "status": "proved",
   "theorems": [
    "Verif.RamCrc.ram_crc",
    "Verif.RamCrc.ram_crc_reads",
    "Verif.RamCrc.ram_lfsr",
    "Verif.RamCrc.ram_lfsr_init"
   ],
   "note": "Addresses do not wrap around. Contexts, tables and the static registers of LFSR113 are kept outside of the memory; the array z is 16 bytes and writing past it is undefined."
  },
  {
   "property": "C107",
   "status": "proved",
   "theorems": [
    "Verif.Des.des_parity",
    "Verif.Des.des_short_key",
    "Verif.Des.des_long_key",
    "Verif.Des.des_triple_single",
    "Verif.Des.des_weak"
   ],
   "note": "A key of 16 bytes is therefore single DES with its first half, not triple DES with two keys (example beside des_long_key)."
  },
  {
   "property": "C108",
   "status": "partial",
   "theorems": [
    "Verif.Hash.sha256_collides",
    "Verif.Hash.sha1_collides",
    "Verif.Hash.md5_collides",
    "Verif.Hash.sha512_collides_partial",
    "Verif.Hash.sha512_collision",
    "Verif.Hash.hmac_sha512_forgery"
   ],
   "note": "Proved for SHA-256, SHA-1 and MD5. False of SHA-512: the code leaves out the length for lengths of 112 and more modulo 128, so every message of 16, 48 or 80 bytes modulo 128 has the digest of a longer one, in SHA-512 and SHA-384 (sha512_collision), and HMAC tags with them are valid for longer messages made without the key (hmac_sha512_forgery). sha512_collides_partial is for lengths below 112 modulo 128."
  },
  {
   "property": "C109",
   "status": "partial",
   "theorems": [
    "Verif.Modes.cbc_error",
    "Verif.Modes.cfb8_resync",
    "Verif.Modes.ctr_error",
    "Verif.Modes.ctr_error_in",
    "Verif.Modes.gcm_error",
    "Verif.Modes.cfb_error_spreads",
    "Verif.Arc4.arc4_error",
    "Verif.Trivium.trivium_error"
   ],
   "note": "Proved but for CFB, where it is false: decryption is the code of encryption (C24), so with every one-to-one cipher all blocks from the changed one on are changed (cfb_error_spreads). CTR in place for counters of 16 bytes (see C26)."
  },
  {
   "property": "C11",
   "status": "partial",
   "theorems": [
    "Verif.Mpi.gcd_correct_partial",
    "Verif.Mpi.gcd_magnitude_partial",
    "Verif.Mpi.gcd_zero_wrong",
    "Verif.Mpi.gcd_negative_wrong"
   ],
   "note": "False as stated for y = 0 (result 0) and for negative y (sign leaks); proved for y > 0 and non-negative operands and for the magnitude."
  },
  {
   "property": "C110",
   "status": "partial",
   "theorems": [
    "Verif.Hash.hmac_sha512_partial",
    "Verif.Hash.hmac_sha512_wrong"
   ],
   "note": "False: the block is 64 bytes for every hash function, so the tags are not those of the standard (hmac_sha512_wrong, both hash functions). Proved for every key and message: the construction with a block of 64 bytes over the hash as the code computes it; with SHA-384 the outer hash always has 112 bytes modulo 128 and lacks its length (C38)."
  },
  {
   "property": "C111",
   "status": "partial",
   "theorems": [
    "Verif.Dh.dh_weak_peer",
    "Verif.Ecdh.ecdh_infinity",
    "Verif.Ecdh.ecdh_off_curve",
    "Verif.Ecdh.ecdh_off_curve_any"
   ],
   "note": "False: nothing is checked. Proved instead, for every modulus above 1 and exponent, that 0, 1 and -1 are taken and which secret they give (after -1 it is the parity of the exponent), that infinity is taken and gives infinity, and that a point of odd order of any other curve with the same a is taken, the result depending only on the secret modulo its order. Missing: points of even order off the curve, where cry_ecp_mul itself may fail (C56); if it does not, the result is the same multiple (ecdh_off_curve_any)."
  },
  {
   "property": "C112",
   "status": "partial",
   "theorems": [
    "Verif.Modes.gcm_forgery_partial",
    "Verif.Modes.gcm_forgery_short_partial",
    "Verif.Modes.gcm_zeros"
   ],
   "note": "Proved for associated data and ciphertext below 2^29 bytes each, for every cipher with the hash key as a separate variable (that the key E(0) is as good as random is an assumption on the cipher). False from there on: the sizes are cut to 32 bits, and 2^29 zeros in front of the associated data never change the tag (gcm_zeros)."
  },
  {
   "property": "C113",
   "status": "partial",
   "theorems": [
    "Verif.Lfsr.lfsr_stream_period_partial",
    "Verif.Lfsr.lfsr_stream_unseeded",
    "Verif.Lfsr.lfsr_stream_live",
    "Verif.Lfsr.lfsr_stream_stuck",
    "Verif.Lfsr.lfsr_period",
    "Verif.Lfsr.lfsr_rand",
    "Verif.Lfsr.lfsr_requests"
   ],
   "note": "Proved for seeds of 16 bytes unless a word is exactly 1, 7, 15 or 127, and without a seed. A state has the full period exactly if no register is stuck (lfsr_stream_live, lfsr_stream_stuck); the excluded seeds leave such a state, so that the statement is false for them. Seeds of other sizes: C46."
  },
  {
   "property": "C114",
   "status": "proved",
   "theorems": [
    "Verif.PrngAes.prngAes_blocks",
    "Verif.PrngAes.prngAes_shift",
    "Verif.PrngAes.prngAes_seed"
   ],
   "note": ""
  },
  {
   "property": "C115",
   "status": "proved",
   "theorems": [
    "Verif.Crc.ccitt_two",
    "Verif.Crc.ibm_two",
    "Verif.Crc.dnp_two",
    "Verif.Crc.eth_two",
    "Verif.Crc.crc16_odd",
    "Verif.Crc.eth_odd_missed"
   ],
   "note": "CRC-32 has no such promise for odd numbers of bits (eth_odd_missed)."
  },
  {
   "property": "C116",
   "status": "proved",
   "theorems": [
    "Verif.Arc4.arc4_key_same",
    "Verif.Arc4.arc4_key_twice",
    "Verif.Arc4.arc4_key_long",
    "Verif.Arc4.arc4_keys_collide",
    "Verif.Arc4.arc4_no_merge",
    "Verif.Arc4.arc4_periodic",
    "Verif.Arc4.arc4_finney"
   ],
   "note": "The period itself is not determined, only that there is one."
  },
  {
   "property": "C117",
   "status": "proved",
   "theorems": [
    "Verif.RamCrc.ram_crc16_again",
    "Verif.RamCrc.ram_crc32_again",
    "Verif.RamCrc.crc_eth_again",
    "Verif.RamCrc.crc_swap",
    "Verif.RamCrc.crc_compl"
   ],
   "note": ""
  },
  {
   "property": "C118",
   "status": "proved",
   "theorems": [
    "Verif.Trivium.trivium_same",
    "Verif.Trivium.trivium_no_merge",
    "Verif.Trivium.trivium_periodic",
    "Verif.Trivium.trivium_never_zero",
    "Verif.Trivium.trivium_zero_state",
    "Verif.Trivium.trivium_no_iv",
    "Verif.Trivium.trivium_key_late"
   ],
   "note": "The period itself is not determined, only that there is one. Different states are not shown to give different key streams."
  },
  {
   "property": "C119",
   "status": "proved",
   "theorems": [
    "Verif.Hash.hmac_keys_sha256",
    "Verif.Hash.hmac_keys_sha1",
    "Verif.Hash.hmac_keys_md5",
    "Verif.Hash.hmac_keys_sha512"
   ],
   "note": "For SHA-512 and SHA-384 the hash is what the code computes (C38), for which clashes are known (C108)."
  },
  {
   "property": "C12",
   "status": "partial",
   "theorems": [
    "Verif.Mpi.lcm_correct_partial",
    "Verif.Mpi.lcm_zero_error",
    "Verif.Mpi.lcm_sign_ub"
   ],
   "note": "False as stated for zero operands (error) and for negative operands (NULL remainder dereferenced); proved for positive operands."
  },
  {
   "property": "C13",
   "status": "proved",
   "theorems": [
    "Verif.Mpi.sqrt_correct",
    "Verif.Mpi.sqrt_rejects"
   ],
   "note": ""
  },
  {
   "property": "C14",
   "status": "partial",
   "theorems": [
    "Verif.Mpi.storeBin_too_small",
    "Verif.Mpi.storeBin_correct",
    "Verif.Mpi.loadBin_correct_partial",
    "Verif.Mpi.loadBin_stale_sign",
    "Verif.Mpi.store_load_bin"
   ],
   "note": "False as stated only in that loading keeps a previous minus sign (loadBin_stale_sign); everything else proved."
  },
  {
   "property": "C15",
   "status": "partial",
   "theorems": [
    "Verif.Mpi.loadStr_correct",
    "Verif.Mpi.storeStr_correct",
    "Verif.Mpi.store_load_str",
    "Verif.Mpi.storeStr_radix",
    "Verif.Mpi.loadStr_rejects_partial",
    "Verif.Mpi.loadStr_accepts_junk",
    "Verif.Mpi.loadStr_junk_unnormalised",
    "Verif.Mpi.loadStr_hex_never_rejects"
   ],
   "note": "Round trip proved; rejection is false: unknown characters count as 0 and the hexadecimal path never rejects (negations proved)."
  },
  {
   "property": "C16",
   "status": "partial",
   "theorems": [
    "Verif.Mpi.setInt_correct_partial",
    "Verif.Mpi.setInt_min_ub",
    "Verif.Mpi.getInt_correct_partial",
    "Verif.Mpi.getInt_wrong",
    "Verif.Mpi.getInt_min_ub",
    "Verif.Mpi.set_get_int"
   ],
   "note": "False as stated for LONG_MIN (overflow) and for -2^64 < x < -2^63 in get_int (negations proved); proved elsewhere."
  },
  {
   "property": "C17",
   "status": "partial",
   "theorems": [
    "Verif.Mpi.rand_correct_partial",
    "Verif.Mpi.rand_too_short",
    "Verif.Mpi.rand_out_of_bounds",
    "Verif.Mpi.rand_stale_sign",
    "Verif.Mpi.randRange_correct_partial",
    "Verif.Mpi.rand_no_ub",
    "Verif.Mpi.randRange_zero"
   ],
   "note": "False as stated: too short results, out-of-bounds write and stale sign (negations proved); range and size bounds proved where they hold."
  },
  {
   "property": "C18",
   "status": "partial",
   "theorems": [
    "Verif.Mpi.smallPrimes_eq",
    "Verif.Mpi.isPrime_small",
    "Verif.Mpi.isPrime_small_factor",
    "Verif.Mpi.isPrime_prime_partial",
    "Verif.Mpi.isPrime_rejects_prime",
    "Verif.Mpi.isPrime_terminates_partial",
    "Verif.Mpi.isPrime_one_hangs"
   ],
   "note": "False as stated: a prime is rejected when the drawn base is 0 (proved for every prime outside the table) and the test of 1 never ends; exact criterion for primes proved."
  },
  {
   "property": "C19",
   "status": "proved",
   "theorems": [
    "Verif.Mpi.countBits_correct",
    "Verif.Mpi.countBytes_correct",
    "Verif.Mpi.isZero_correct",
    "Verif.Mpi.isOdd_correct",
    "Verif.Mpi.isEven_correct"
   ],
   "note": ""
  },
  {
   "property": "C20",
   "status": "proved",
   "theorems": [
    "Verif.ListInit.mpiInitList_all_or_nothing",
    "Verif.ListInit.ecpInitList_all_or_nothing",
    "Verif.ListInit.mpiInitList_success_iff"
   ],
   "note": "every failure point"
  },
  {
   "property": "C21",
   "status": "proved",
   "theorems": [
    "Verif.MemXor.memxor_correct"
   ],
   "note": "all overlaps, flat memory"
  },
  {
   "property": "C22",
   "status": "partial",
   "theorems": [
    "Verif.MemXor.memxor2_correct_partial",
    "Verif.MemXor.memxor2_wrong_on_bad_overlap",
    "Verif.MemXor.memxor2_alloc_failure"
   ],
   "note": "The full claim is false: the final rotation of case 3 is wrong exactly when the overlap d does not divide n-1; proved for every other placement, negation proved for the whole bad class."
  },
  {
   "property": "C23",
   "status": "partial",
   "theorems": [
    "Verif.Modes.memxor2_placement",
    "Verif.Modes.cbc_roundtrip_partial",
    "Verif.Modes.cbc_standard",
    "Verif.Modes.cbcEncrypt_split",
    "Verif.Modes.cbcDecrypt_split",
    "Verif.Modes.cbc_empty_ub"
   ],
   "note": "Proved for all non-empty whole-block messages in and out of place; the empty message is undefined in decryption (cbc_empty_ub)."
  },
  {
   "property": "C24",
   "status": "partial",
   "theorems": [
    "Verif.Modes.cfbCrypt_standard",
    "Verif.Modes.cfb_roundtrip_partial",
    "Verif.Modes.cfb_decrypt_wrong",
    "Verif.Modes.cfb_partial_ub",
    "Verif.Modes.cfb_no_iv_hangs"
   ],
   "note": "Encryption is textbook CFB for every message; decryption is the same code and is false as stated from two blocks on (cfb_decrypt_wrong, for every injective cipher)."
  },
  {
   "property": "C25",
   "status": "partial",
   "theorems": [
    "Verif.Modes.cfb8Encrypt_correct",
    "Verif.Modes.cfb8Encrypt_split",
    "Verif.Modes.cfb8Decrypt_correct_partial",
    "Verif.Modes.cfb8_roundtrip",
    "Verif.Modes.cfb8Decrypt_split_partial",
    "Verif.Modes.cfb8Decrypt_short",
    "Verif.Modes.cfb8Decrypt_short_wrong"
   ],
   "note": "Encryption fully proved, round trip fully proved; decryption of a short non-final part leaves indeterminate bytes in the register (negation proved)."
  },
  {
   "property": "C26",
   "status": "partial",
   "theorems": [
    "Verif.Modes.incBE_value",
    "Verif.Modes.incBE_one_byte_ub",
    "Verif.Modes.ctrOut_standard",
    "Verif.Modes.ctrIn_standard_partial",
    "Verif.Modes.ctrIn_short",
    "Verif.Modes.ctr_self_inverse",
    "Verif.Modes.ctr_in_eq_out_partial",
    "Verif.Modes.ctr_split",
    "Verif.Modes.ctrIn_small_wrong"
   ],
   "note": "Out of place fully proved; in place proved for 16-byte counters and for short messages, false for 8-byte counters from 64 bytes (negation proved)."
  },
  {
   "property": "C27",
   "status": "proved",
   "theorems": [
    "Verif.Modes.gcm_roundtrip",
    "Verif.Modes.gcmEncrypt_split",
    "Verif.Modes.gcmUpdate_split",
    "Verif.Modes.gcm_session_wf",
    "Verif.Modes.gcm_standard",
    "Verif.Modes.gcm_standard_any",
    "Verif.Modes.gcm_sizes_truncated"
   ],
   "note": "Beyond the claim: equality with the standard for lengths below 2^29 bytes; beyond that the size block keeps only 32 bits of the byte count (gcm_sizes_truncated)."
  },
  {
   "property": "C28",
   "status": "proved",
   "theorems": [
    "Verif.Modes.gfMul_correct",
    "Verif.Modes.gpoly_injective",
    "Verif.Modes.gfMul_comm",
    "Verif.Modes.gfMul_assoc",
    "Verif.Modes.gfMul_distrib",
    "Verif.Modes.gfMul_eq_zero",
    "Verif.Modes.gfMul_inverse",
    "Verif.Gf.gcm_irreducible"
   ],
   "note": "multiplication in GF(2)[x]/(x^128+x^7+x^2+x+1), stated with polynomials"
  },
  {
   "property": "C29",
   "status": "proved",
   "theorems": [
    "Verif.Modes.cmac_correct"
   ],
   "note": "any block cipher, any message, any chunking"
  },
  {
   "property": "C30",
   "status": "proved",
   "theorems": [
    "Verif.Modes.hmac_correct",
    "Verif.Hash.hmac_sha256",
    "Verif.Hash.hmac_sha1",
    "Verif.Hash.hmac_md5"
   ],
   "note": "for any streaming hash, and for the three hashes of the library that are correct for all lengths"
  },
  {
   "property": "C31",
   "status": "proved",
   "theorems": [
    "Verif.Modes.unwrap_wrap",
    "Verif.Modes.unwrap_accepts_iff",
    "Verif.Modes.unwrap_short_ub",
    "Verif.Modes.wrap_standard",
    "Verif.Modes.wrap_nonstandard",
    "Verif.Aes.aes_wrap_roundtrip"
   ],
   "note": "Any 16-byte block cipher; acceptance is exactly being a wrapping. Beyond the claim: RFC 3394 up to 42 blocks, different from it at 43."
  },
  {
   "property": "C32",
   "status": "proved",
   "theorems": [
    "Verif.Aes.encrypt_fips",
    "Verif.Aes.decrypt_fips",
    "Verif.Aes.fips_inverse",
    "Verif.Aes.decrypt_encrypt",
    "Verif.Aes.keySet_short"
   ],
   "note": "tables, rounds and key schedule against FIPS 197 over GF(2^8); all keys of the three sizes, all blocks"
  },
  {
   "property": "C33",
   "status": "partial",
   "theorems": [
    "Verif.Aes.encrypt_history_partial",
    "Verif.Aes.alternation_wrong"
   ],
   "note": "False as stated (alternation_wrong). The exact behaviour after any history is proved: right after a multiple of four changes of direction, a different key schedule after 4q+2."
  },
  {
   "property": "C34",
   "status": "proved",
   "theorems": [
    "Verif.Des.des_block",
    "Verif.Des.des_standard",
    "Verif.Des.des_roundtrip",
    "Verif.Des.des_complement",
    "Verif.Des.des_blocks",
    "Verif.Des.des_undefined"
   ],
   "note": "Beyond the claim: equality with FIPS 46-3, any key length; a message that is not whole blocks is undefined (des_undefined)."
  },
  {
   "property": "C35",
   "status": "proved",
   "theorems": [
    "Verif.Hash.Sha256.sha256_correct",
    "Verif.Hash.Sha256.sha256_oneshot",
    "Verif.Hash.Sha256.sha256_constants"
   ],
   "note": ""
  },
  {
   "property": "C36",
   "status": "proved",
   "theorems": [
    "Verif.Hash.Sha1.sha1_correct",
    "Verif.Hash.Sha1.sha1_oneshot",
    "Verif.Hash.Sha1.sha1_long_update"
   ],
   "note": "update calls below 4 GiB each, as in the statement"
  },
  {
   "property": "C37",
   "status": "proved",
   "theorems": [
    "Verif.Hash.Md5.md5_correct",
    "Verif.Hash.Md5.md5_oneshot",
    "Verif.Hash.Md5.md5_long_update"
   ],
   "note": "update calls below 4 GiB each; md5_long_update shows the bound is needed"
  },
  {
   "property": "C38",
   "status": "partial",
   "theorems": [
    "Verif.Hash.Sha512.sha512_partial",
    "Verif.Hash.Sha512.sha512_no_length",
    "Verif.Hash.Sha512.sha512_wrong",
    "Verif.Hash.Sha512.sha512_constants"
   ],
   "note": "false of the code when the length modulo 128 is 112 or more: the length is then left out (sha512_no_length, witness sha512_wrong); proved for all other lengths"
  },
  {
   "property": "C39",
   "status": "proved",
   "theorems": [
    "Verif.Crc.ccitt_remainder",
    "Verif.Crc.dnp_remainder",
    "Verif.Crc.ibm_remainder",
    "Verif.Crc.eth_remainder",
    "Verif.Crc.reg_injective",
    "Verif.Crc.update_split",
    "Verif.Crc.digest16_value",
    "Verif.Crc.digest32_value",
    "Verif.Crc.ccitt_detects",
    "Verif.Crc.dnp_detects",
    "Verif.Crc.ibm_detects",
    "Verif.Crc.eth_detects",
    "Verif.Crc.burst_byte"
   ],
   "note": ""
  },
  {
   "property": "C40",
   "status": "proved",
   "theorems": [
    "Verif.Base64.base64_roundtrip",
    "Verif.Base64.encode_correct",
    "Verif.Base64.decode_rejects_length",
    "Verif.Base64.decode_rejects_iff",
    "Verif.Base64.base64_empty_ub",
    "Verif.Base64.decode_accepts_bad_padding"
   ],
   "note": "The character '=' counts as an allowed character wherever it stands; decode_accepts_bad_padding shows a text with misplaced '=' that is accepted."
  },
  {
   "property": "C41",
   "status": "proved",
   "theorems": [
    "Verif.Arc4.arc4_standard",
    "Verif.Arc4.arc4_self_inverse",
    "Verif.Arc4.arc4_split",
    "Verif.Arc4.arc4_permutation",
    "Verif.Arc4.arc4_empty_key"
   ],
   "note": ""
  },
  {
   "property": "C42",
   "status": "proved",
   "theorems": [
    "Verif.Trivium.trivium_parallel",
    "Verif.Trivium.trivium_standard",
    "Verif.Trivium.trivium_forgets",
    "Verif.Trivium.trivium_self_inverse",
    "Verif.Trivium.trivium_split",
    "Verif.Trivium.trivium_split_wrong"
   ],
   "note": "Beyond the claim: the keystream is that of the eSTREAM specification; calls may be split at multiples of four bytes and not elsewhere (trivium_split, trivium_split_wrong)."
  },
  {
   "property": "C43",
   "status": "partial",
   "theorems": [
    "Verif.Affine.affine_init_iff",
    "Verif.Affine.affine_roundtrip_partial",
    "Verif.Affine.affine_standard",
    "Verif.Affine.affine_empty_key"
   ],
   "note": "False as stated only for the empty key (affine_empty_key)."
  },
  {
   "property": "C44",
   "status": "partial",
   "theorems": [
    "Verif.Hill.keylenTrim_eq",
    "Verif.Hill.hill_init_iff",
    "Verif.Hill.hill_roundtrip_partial",
    "Verif.Hill.hill_standard",
    "Verif.Hill.hill_tail_oob",
    "Verif.Hill.hill_empty_key_hangs",
    "Verif.Hill.hill_wrong_ikey"
   ],
   "note": "Round trip proved for every accepted key and whole-block message; a message that is not whole blocks makes both operations write past the output (hill_tail_oob), the empty key never ends (hill_empty_key_hangs), a supplied inverse is not checked (hill_wrong_ikey)."
  },
  {
   "property": "C45",
   "status": "proved",
   "theorems": [
    "Verif.PrngAes.prngAes_stream",
    "Verif.PrngAes.prngAes_chunks",
    "Verif.PrngAes.prngAes_unseeded"
   ],
   "note": "the output is AES in counter mode, for every seed and chunking"
  },
  {
   "property": "C46",
   "status": "partial",
   "theorems": [
    "Verif.Lfsr.lfsr_deterministic_partial",
    "Verif.Lfsr.lfsr_short_seed",
    "Verif.Lfsr.lfsr_long_seed",
    "Verif.Lfsr.lfsr_not_stuck_partial",
    "Verif.Lfsr.lfsr_degenerate",
    "Verif.Lfsr.lfsr_nonzero",
    "Verif.Lfsr.lfsr_recurrence",
    "Verif.Lfsr.lfsr_sequences"
   ],
   "note": "False as stated: seeds under 16 bytes keep part of the old state, longer ones overflow, and the words 1, 7, 15, 127 are let through (one seed gives zeros for ever). Proved for all other seeds; the registers follow the published recurrences."
  },
  {
   "property": "C47",
   "status": "partial",
   "theorems": [
    "Verif.Dh.dh_agree_partial",
    "Verif.Dh.dh_one_wrong",
    "Verif.Dh.dh_stale_sign"
   ],
   "note": "False as stated only for modulus 1 with exponent 0 (dh_one_wrong); proved for every modulus above 1. A random secret keeps the sign of the object it overwrites (dh_stale_sign)."
  },
  {
   "property": "C48",
   "status": "proved",
   "theorems": [
    "Verif.Dsa.dsa_sign_spec",
    "Verif.Dsa.dsa_complete"
   ],
   "note": ""
  },
  {
   "property": "C49",
   "status": "partial",
   "theorems": [
    "Verif.Dsa.dsa_verify_iff",
    "Verif.Dsa.dsa_sound_partial",
    "Verif.Dsa.dsa_forgery",
    "Verif.Dsa.dsa_large_s",
    "Verif.Dsa.dsa_zero_r"
   ],
   "note": "False as stated: the ranges of r and s are not checked; (r,0) is accepted for every message and key (dsa_forgery). Exact acceptance condition proved."
  },
  {
   "property": "C50",
   "status": "proved",
   "theorems": [
    "Verif.Elgamal.elgamal_complete",
    "Verif.Elgamal.elgamal_complete_bytes",
    "Verif.Elgamal.elgamal_sign_ok"
   ],
   "note": ""
  },
  {
   "property": "C51",
   "status": "partial",
   "theorems": [
    "Verif.Ecdsa.ecdsa_sign_spec",
    "Verif.Ecdsa.ecdsa_complete_partial",
    "Verif.Ecdsa.ecdsa_sign_verify_partial",
    "Verif.Ecdsa.ecdsa_verify_iff",
    "Verif.Ecdsa.ecdsa_sound",
    "Verif.Ecdsa.ecdsa_large_r",
    "Verif.Ecdsa.ecdsa_x_ge_n",
    "Verif.Ecdsa.ecdsa_k_zero",
    "Verif.Ecdsa.ecdsa_large_s",
    "Verif.Ecdsa.ecdsa_sign_ub",
    "Verif.Ecdsa.ecdsa_keygen",
    "Verif.Ecdsa.ecdsa_keygen_zero",
    "Verif.Ecp.builtin_ecdsa"
   ],
   "note": "False as stated: r is not reduced modulo n, so a nonce point with abscissa n or more gives a signature that is rejected (ecdsa_x_ge_n), and a nonce 0 is not retried (ecdsa_k_zero). Proved for all other nonces; exact acceptance condition proved."
  },
  {
   "property": "C52",
   "status": "partial",
   "theorems": [
    "Verif.Rsa.rsa_roundtrip_partial",
    "Verif.Rsa.rsa_nopad_partial",
    "Verif.Rsa.rsa_multiblock_wrong",
    "Verif.Rsa.rsa_empty_ub",
    "Verif.Rsa.rsa_eleven_hangs",
    "Verif.Rsa.rsa_small_ub"
   ],
   "note": "Proved for every message of one block. False for every longer message: all blocks are decrypted to the start of the buffer, the rest is never written (rsa_multiblock_wrong). Empty message, modulus of 11 bytes and shorter: undefined, endless, undefined."
  },
  {
   "property": "C53",
   "status": "proved",
   "theorems": [
    "Verif.Rsa.padding_add_pkcs",
    "Verif.Rsa.padding_add_long",
    "Verif.Rsa.padding_roundtrip",
    "Verif.Rsa.padding_del_iff",
    "Verif.Rsa.padding_del_rejects",
    "Verif.Rsa.padding_short_accepted"
   ],
   "note": "Beyond the claim: the exact set of blocks accepted; the minimum of eight padding bytes of the standard is not enforced."
  },
  {
   "property": "C54",
   "status": "partial",
   "theorems": [
    "Verif.Rsa.rsa_sign_verify_partial",
    "Verif.Rsa.rsa_verify_iff",
    "Verif.Rsa.rsa_second_signature",
    "Verif.Rsa.rsa_long_sign_rejected",
    "Verif.Rsa.rsa_junk_accepted",
    "Verif.Rsa.rsa_none_prefix"
   ],
   "note": "Acceptance proved for inputs of one block, and exactly which strings of the size of the modulus are accepted. False: inputs of more than one block are never accepted; the signature plus n, and a block of nothing put in front, are accepted too; without padding every beginning of the input is."
  },
  {
   "property": "C55",
   "status": "partial",
   "theorems": [
    "Verif.Ecp.ecp_dbl_partial",
    "Verif.Ecp.ecp_dbl_order_two_fails",
    "Verif.Ecp.ecp_add_partial",
    "Verif.Ecp.ecp_add_order_two_fails",
    "Verif.Ecp.ecp_order_two_example"
   ],
   "note": "Against Mathlib's group of points. False as stated only for points of order two, where both functions report an error."
  },
  {
   "property": "C56",
   "status": "partial",
   "theorems": [
    "Verif.Ecp.ecp_mul_partial",
    "Verif.Ecp.ecp_mul_sound",
    "Verif.Ecp.ecp_mul_even_fails",
    "Verif.Ecp.ecp_mul_sign"
   ],
   "note": "Proved for every point of odd order and scalars of any length; for any order a result returned without error is right. False for points of order 2, 4 and 8 (always an error) and for negative scalars (sign ignored)."
  },
  {
   "property": "C57",
   "status": "proved",
   "theorems": [
    "Verif.Ecdh.ecdh_agree",
    "Verif.Ecdh.ecdh_agree_any"
   ],
   "note": ""
  },
  {
   "property": "C58",
   "status": "proved",
   "theorems": [
    "Verif.Ecp.grpLoad_iff",
    "Verif.Ecp.builtin_base_point"
   ],
   "note": "digits of 32 and 64 bits; beyond the claim: the constants are the published ones and no other number is accepted"
  },
  {
   "property": "C59",
   "status": "proved",
   "theorems": [
    "Verif.LongInv.longInv_correct",
    "Verif.LongInv.longInv_zero"
   ],
   "note": ""
  },
  {
   "property": "C60",
   "status": "partial",
   "theorems": [
    "Verif.Elgamal.elgamal_verify_iff",
    "Verif.Elgamal.elgamal_sound_partial",
    "Verif.Elgamal.elgamal_forgery",
    "Verif.Elgamal.elgamal_forgery_exists",
    "Verif.Elgamal.elgamal_zero"
   ],
   "note": "False as stated: r is not bounded, so a signature of one message yields signatures of others without the key (elgamal_forgery). Exact acceptance condition proved."
  },
  {
   "property": "C61",
   "status": "proved",
   "theorems": [
    "Verif.Ecp.builtin_prime_order"
   ],
   "note": "primality by elliptic-curve certificates checked in the kernel"
  },
  {
   "property": "C62",
   "status": "proved",
   "theorems": [
    "Verif.Ecp.builtin_arith",
    "Verif.Ecp.builtin_ecdh"
   ],
   "note": "digits of 32 and 64 bits; the sign of a scalar is ignored (C56)"
  },
  {
   "property": "C63",
   "status": "partial",
   "theorems": [
    "Verif.Mpi.prime_success_iff_partial",
    "Verif.Mpi.prime_form_partial",
    "Verif.Mpi.prime_product",
    "Verif.Mpi.prime_bad_length",
    "Verif.Mpi.prime_last_turn",
    "Verif.Mpi.prime_one_turn",
    "Verif.Mpi.prime_short",
    "Verif.Mpi.prime_hangs"
   ],
   "note": "Exactly when 0 is returned is proved, and the form of the number when no leading random digit is zero. False: acceptance in the last turn is reported as failure (prime_last_turn), a zero leading digit gives a short number (prime_short), a candidate 1 never ends (prime_hangs). That the number is prime is not a theorem (probabilistic test)."
  },
  {
   "property": "C64",
   "status": "partial",
   "theorems": [
    "Verif.RsaGen.rsa_keygen_partial",
    "Verif.RsaGen.rsa_keygen_completed",
    "Verif.RsaGen.rsa_keygen_no_private",
    "Verif.RsaGen.rsa_keygen_exhausted_equal",
    "Verif.RsaGen.rsa_keygen_exhausted_even",
    "Verif.RsaGen.rsa_keygen_exhausted_odd"
   ],
   "note": "False as stated: d is never computed (rsa_keygen_no_private, for all inputs), and 0 is also returned after 10000 failed turns. Proved: the form of n, p, q, e otherwise, and that computing d then gives a key for C52."
  },
  {
   "property": "C65",
   "status": "partial",
   "theorems": [
    "Verif.DsaGen.dsa_keygen_partial",
    "Verif.DsaGen.dsa_keygen_lengths",
    "Verif.DsaGen.dsa_keygen_key",
    "Verif.DsaGen.dsa_keygen_sign",
    "Verif.DsaGen.dsa_keygen_run",
    "Verif.DsaGen.dsa_keygen_zero_private",
    "Verif.DsaGen.dsa_keygen_private_range"
   ],
   "note": "False as stated: the private key is drawn below (p-1)/q instead of q, so it may be 0 or larger than q. Everything else proved, the lengths when no leading random digit is zero."
  },
  {
   "property": "C66",
   "status": "proved",
   "theorems": [
    "Verif.Modes.aes_ctx_enc",
    "Verif.Modes.aes_ctx_dec",
    "Verif.Modes.aes_cbc",
    "Verif.Modes.aes_ctr",
    "Verif.Modes.aes_cfb",
    "Verif.Modes.aes_cfb8",
    "Verif.Modes.aes_gcm",
    "Verif.Modes.aes_cmac",
    "Verif.Modes.aes_wrap",
    "Verif.Modes.des_cbc"
   ],
   "note": "messages below 2^64 bytes (CBC), 2^29 bytes (GCM), 42 blocks (key wrap), where the modes are those of the standards; empty CBC messages excepted (C23)"
  },
  {
   "property": "C67",
   "status": "partial",
   "theorems": [
    "Verif.Mem.mem_copy",
    "Verif.Mem.mem_abs",
    "Verif.Mem.mem_addAbs",
    "Verif.Mem.mem_subAbs",
    "Verif.Mem.mem_subAbs_small",
    "Verif.Mem.mem_add",
    "Verif.Mem.mem_sub",
    "Verif.Mem.mem_shl",
    "Verif.Mem.mem_shr",
    "Verif.Mem.mem_shr_any",
    "Verif.Mem.mem_cmp",
    "Verif.Mem.mem_cmpAbs",
    "Verif.Mem.mem_init",
    "Verif.Mem.mem_clear",
    "Verif.Mem.mem_grow_static",
    "Verif.Mem.mem_add_fresh",
    "Verif.Mem.mem_shr_negzero"
   ],
   "note": "Proved for all listed functions; false only for a negative number shifted right to zero, which becomes a zero with a negative sign (mem_shr_negzero). size_t does not overflow in the model."
  },
  {
   "property": "C68",
   "status": "partial",
   "theorems": [
    "Verif.Mem.mem_mul",
    "Verif.Mem.mem_mulDig",
    "Verif.Mem.mem_mulDig_any",
    "Verif.Mem.mem_sqr_partial",
    "Verif.Mem.mem_sqr_any",
    "Verif.Mem.mem_sqr_negative"
   ],
   "note": "Proved for mul without restriction. False for sqr into another number that was negative before: the square gets the old sign (mem_sqr_negative); mul_dig keeps that sign on a zero product. Proved otherwise, and exactly what happens then."
  },
  {
   "property": "C69",
   "status": "partial",
   "theorems": [
    "Verif.Mem.mem_divAbs",
    "Verif.Mem.mem_divAbs_zero",
    "Verif.Mem.mem_div_partial",
    "Verif.Mem.mem_mod",
    "Verif.Mem.mem_div_failure_lost",
    "Verif.Mem.mem_mod_alias_wrong",
    "Verif.Mem.mem_div_null_remainder"
   ],
   "note": "Proved for div_abs without restriction, for mod with a positive modulus, for div with a positive divisor unless a negative dividend is divided exactly (wrong quotient sign, C06). With a negative dividend it is false if the divisor is an output (mem_mod_alias_wrong), if the quotient has no room for a digit and that allocation fails (mem_div_failure_lost), or without a remainder object (mem_div_null_remainder)."
  },
  {
   "property": "C70",
   "status": "partial",
   "theorems": [
    "Verif.Mem.mem_modExp_partial",
    "Verif.Mem.mem_exp_partial",
    "Verif.Mem.mem_modExp_negative",
    "Verif.Mem.mem_modExp_first_failure",
    "Verif.Mem.mem_modExp_first_failure_zero"
   ],
   "note": "Proved for all aliasing and all failing allocations but the first one of the call. There it is false: an uninitialised number is squared (mem_modExp_first_failure), or with exponent 0 the result is replaced by uninitialised members (mem_modExp_first_failure_zero)."
  },
  {
   "property": "C71",
   "status": "proved",
   "theorems": [
    "Verif.Mem.mem_gcd",
    "Verif.Mem.mem_lcm",
    "Verif.Mem.mem_gcd_zero",
    "Verif.Mem.mem_lcm_negative"
   ],
   "note": "Beyond the claim: a zero operand makes gcd read an unwritten digit, operands of different sign make lcm dereference NULL."
  },
  {
   "property": "C72",
   "status": "partial",
   "theorems": [
    "Verif.Mem.mem_inv_partial",
    "Verif.Mem.mem_inv_failure_lost",
    "Verif.Mem.mem_inv_never_returns",
    "Verif.Mem.mem_inv_alias_wrong"
   ],
   "note": "Proved when no allocation fails and the result is not the modulus. Otherwise false: one failing allocation gives 0 as inverse of 200 modulo 7 with status 0 (mem_inv_failure_lost); the loop never ends when all later allocations fail (mem_inv_never_returns); and so does the inverse of 3 modulo 7 over the modulus (mem_inv_alias_wrong)."
  },
  {
   "property": "C73",
   "status": "proved",
   "theorems": [
    "Verif.Mem.mem_sqrt",
    "Verif.Mem.mem_sqrt_negative"
   ],
   "note": ""
  },
  {
   "property": "C74",
   "status": "proved",
   "theorems": [
    "Verif.Mem.mem_loadBin",
    "Verif.Mem.mem_initBin",
    "Verif.Mem.mem_storeBin",
    "Verif.Mem.mem_storeBin_small"
   ],
   "note": "load_bin keeps the sign the number had before, as in C14."
  },
  {
   "property": "C75",
   "status": "proved",
   "theorems": [
    "Verif.Mem.mem_storeStr",
    "Verif.Mem.mem_storeStr_radix"
   ],
   "note": ""
  },
  {
   "property": "C76",
   "status": "partial",
   "theorems": [
    "Verif.Mem.mem_print_partial",
    "Verif.Mem.mem_print_hex",
    "Verif.Mem.mem_print_overruns"
   ],
   "note": "Proved for radix 16, and in the other radices exactly for the numbers whose string fits into the allocated buffer. False for all others: the string is written past the end (mem_print_overruns), e.g. -255 or 16777215 in radix 10, 200 in radix 2."
  },
  {
   "property": "C77",
   "status": "proved",
   "theorems": [
    "Verif.Mem.mem_loadStr",
    "Verif.Mem.mem_loadStr_invalid",
    "Verif.Mem.mem_loadStr_radix",
    "Verif.Mem.mem_initStr"
   ],
   "note": ""
  },
  {
   "property": "C78",
   "status": "partial",
   "theorems": [
    "Verif.Ram.ram_cbc_encrypt",
    "Verif.Ram.ram_cbc_decrypt_out",
    "Verif.Ram.ram_cbc_decrypt_in",
    "Verif.Ram.ram_cbc_decrypt_in_nomem",
    "Verif.Ram.ram_cbc_roundtrip_partial",
    "Verif.Ram.ram_cbc_encrypt_ahead",
    "Verif.Ram.ram_cbc_encrypt_ahead_bad",
    "Verif.Ram.ram_cbc_decrypt_behind",
    "Verif.Ram.ram_cbc_decrypt_behind_bad",
    "Verif.Ram.ram_cbc_decrypt_empty"
   ],
   "note": "Encryption is proved unless the output starts inside the input, decryption of at least a block in place or with buffers apart, with and without malloc failing. The rest is false: encryption with the output one block further (ram_cbc_encrypt_ahead), decryption with the output one block back (ram_cbc_decrypt_behind), decryption of less than a block, which runs over the address space (ram_cbc_decrypt_empty)."
  },
  {
   "property": "C79",
   "status": "partial",
   "theorems": [
    "Verif.Ram.ram_cfb_whole",
    "Verif.Ram.ram_cfb_rest_partial",
    "Verif.Ram.ram_cfb_overread"
   ],
   "note": "Proved for whole blocks unless the output starts inside the input. With a partial last block the ciphertext is right if the output buffer reaches to the end of the block, but the register takes the bytes there; otherwise they are read out of bounds (ram_cfb_overread)."
  },
  {
   "property": "C80",
   "status": "partial",
   "theorems": [
    "Verif.Ram.ram_cfb8_encrypt",
    "Verif.Ram.ram_cfb8_decrypt_partial",
    "Verif.Ram.ram_cfb8_decrypt_empty",
    "Verif.Ram.ram_cfb8_roundtrip",
    "Verif.Ram.ram_cfb8_register_bad"
   ],
   "note": "Proved but for the register after decrypting less than a block, which takes bytes of an uninitialised local array (exact value in ram_cfb8_decrypt_partial, counterexample ram_cfb8_register_bad)."
  },
  {
   "property": "C81",
   "status": "partial",
   "theorems": [
    "Verif.Ram.ram_ctr_out",
    "Verif.Ram.ram_ctr_in_partial",
    "Verif.Ram.ram_ctr_in_short",
    "Verif.Ram.ram_ctr_twice_partial",
    "Verif.Ram.ram_ctr_ahead",
    "Verif.Ram.ram_ctr_ahead_bad",
    "Verif.Ram.ram_ctr_in_small",
    "Verif.Ram.ram_ctr_in_small_bad"
   ],
   "note": "Proved with buffers apart for all counter sizes from 2, in place for counters of 16 bytes and below 64 bytes for the sizes that divide 64. False for overlapping buffers (ram_ctr_ahead) and in place with 8-byte counters from 64 bytes on (ram_ctr_in_small)."
  },
  {
   "property": "C82",
   "status": "partial",
   "theorems": [
    "Verif.Mem.mem_ecp_dbl_partial",
    "Verif.Mem.mem_ecp_dbl_order_two",
    "Verif.Mem.mem_ecp_add_partial",
    "Verif.Mem.mem_ecp_add_order_two",
    "Verif.Mem.mem_ecp_dbl_failure_lost",
    "Verif.Mem.mem_ecp_add_inverse_failure"
   ],
   "note": "Proved when no allocation fails, for all points but those of order two, where the code reports failure (mem_ecp_dbl_order_two, mem_ecp_add_order_two). False when allocations fail: doubling can report success with a point off the curve (mem_ecp_dbl_failure_lost), adding opposite points can report success without writing anything (mem_ecp_add_inverse_failure)."
  },
  {
   "property": "C83",
   "status": "partial",
   "theorems": [
    "Verif.Mem.mem_ecp_mul_partial",
    "Verif.Mem.mem_ecp_mul_sound",
    "Verif.Mem.mem_ecp_mul_no_window",
    "Verif.Mem.mem_ecp_mul_false_success"
   ],
   "note": "Proved when no allocation fails, for points of odd order (for the others success still means the right result). False when the block for the window cannot be allocated: success is reported and nothing has been computed, for every finite point and every scalar."
  },
  {
   "property": "C84",
   "status": "proved",
   "theorems": [
    "Verif.Mem.mem_ecp_init",
    "Verif.Mem.mem_ecp_init_int",
    "Verif.Mem.mem_ecp_copy",
    "Verif.Mem.mem_ecp_clear",
    "Verif.Mem.mem_ecp_init_list",
    "Verif.Mem.mem_ecp_clear_list",
    "Verif.Mem.mem_ecp_grp_init",
    "Verif.Mem.mem_ecp_grp_clear"
   ],
   "note": ""
  },
  {
   "property": "C85",
   "status": "partial",
   "theorems": [
    "Verif.Mem.mem_rand_partial",
    "Verif.Mem.mem_randRange_partial",
    "Verif.Mem.mem_rand_zeros",
    "Verif.Mem.mem_rand_negative"
   ],
   "note": "Proved for all patterns of failing allocations, for destinations that are not negative and generator bytes that reach the top digit. False otherwise: zero bytes make the code read a digit that was never written (mem_rand_zeros, for every size), and a negative destination stays negative (mem_rand_negative)."
  },
  {
   "property": "C86",
   "status": "partial",
   "theorems": [
    "Verif.Mem.mem_dsa_verify_partial",
    "Verif.Mem.mem_dsa_verify_lost",
    "Verif.Mem.mem_dsa_sign_partial",
    "Verif.Mem.mem_dsa_sign_lost",
    "Verif.Mem.mem_dsa_sign_verify"
   ],
   "note": "Proved when no allocation fails (a signature whose s has no inverse is accepted, C49). False when one fails: the status of every call is dropped, so any signature of any message is accepted when the request after the four locals fails (mem_dsa_verify_lost), and signing reports success without having made a signature (mem_dsa_sign_lost); both for all arguments."
  },
  {
   "property": "C87",
   "status": "partial",
   "theorems": [
    "Verif.Mem.mem_ecdsa_verify_partial",
    "Verif.Mem.mem_ecdsa_verify_ub",
    "Verif.Mem.mem_ecdsa_verify_forged",
    "Verif.Mem.mem_ecdsa_sign_partial",
    "Verif.Mem.mem_ecdsa_sign_lost",
    "Verif.Mem.mem_ecdsa_sign_verify"
   ],
   "note": "Proved when no allocation fails, for a subgroup of odd prime order. False when one fails: if the third request fails, verification clears numbers that were never initialised, which is undefined behaviour (mem_ecdsa_verify_ub), and signing reports success without having made a signature (mem_ecdsa_sign_lost); both for all arguments. If the windows of both multiplications cannot be allocated a wrong signature is accepted (mem_ecdsa_verify_forged). A random number that is 0 modulo the order also gives status 0 with no signature made (in mem_ecdsa_sign_partial)."
  },
  {
   "property": "C88",
   "status": "partial",
   "theorems": [
    "Verif.Mem.mem_grp_load",
    "Verif.Mem.mem_grp_load_unknown",
    "Verif.Mem.mem_grp_load_leak",
    "Verif.Mem.mem_ecdsa_init",
    "Verif.Mem.mem_ecdsa_init_load",
    "Verif.Mem.mem_ecdsa_init_unknown",
    "Verif.Mem.mem_ecdsa_clear",
    "Verif.Mem.mem_ecdh_init_partial",
    "Verif.Mem.mem_ecdh_init_plenty",
    "Verif.Mem.mem_ecdh_init_lost",
    "Verif.Mem.mem_ecdh_clear",
    "Verif.Mem.mem_ecdh_load_leak"
   ],
   "note": "Proved for cry_ecdsa_init under every pattern of failing requests, for clearing, and for loading every built-in group. False for cry_ecdh_init, which ignores the status of what it calls: after a failed first request it is silent and clearing the context is undefined behaviour (mem_ecdh_init_lost). Loading a group over an initialised one loses every block the group owned (mem_grp_load_leak); after cry_ecdh_init, which initialises the group itself, that is seven blocks (mem_ecdh_load_leak)."
  },
  {
   "property": "C89",
   "status": "partial",
   "theorems": [
    "Verif.Mem.mem_ecdsa_keygen_partial",
    "Verif.Mem.mem_ecdsa_keygen_lost",
    "Verif.Mem.mem_ecdsa_keygen_zero",
    "Verif.Mem.mem_ecdsa_life",
    "Verif.Mem.mem_ecdh_agree_partial",
    "Verif.Mem.mem_ecdh_final_partial",
    "Verif.Mem.mem_ecdh_lost",
    "Verif.Mem.mem_ecdh_shared"
   ],
   "note": "Proved when no allocation fails; for the built-in curves from initialisation to verification (mem_ecdsa_life). False when the window of the multiplication cannot be allocated: status 0 with a new private key and the old public key (mem_ecdsa_keygen_lost), status 0 and nothing done in ECDH (mem_ecdh_lost). When the generator delivers the order the private key is 0 (mem_ecdsa_keygen_zero)."
  },
  {
   "property": "C90",
   "status": "partial",
   "theorems": [
    "Verif.Mem.mem_initList",
    "Verif.Mem.mem_dh_init",
    "Verif.Mem.mem_dh_clear",
    "Verif.Mem.mem_dh_agree_partial",
    "Verif.Mem.mem_dh_finalize_partial",
    "Verif.Mem.mem_dh_side",
    "Verif.Mem.mem_dh_shared",
    "Verif.Mem.mem_dh_agree_ub"
   ],
   "note": "Proved for initialising and clearing under all failing requests, for the two exponentiations under all in which the first request of the call succeeds, and for the exchange when none fails. False if that first request fails: an uninitialised number is used (mem_dh_agree_ub)."
  },
  {
   "property": "C91",
   "status": "partial",
   "theorems": [
    "Verif.Mem.mem_elgamal_verify2_partial",
    "Verif.Mem.mem_elgamal_verify_partial",
    "Verif.Mem.mem_elgamal_verify2_any_partial",
    "Verif.Mem.mem_elgamal_verify_any_partial",
    "Verif.Mem.mem_elgamal_sign2_partial",
    "Verif.Mem.mem_elgamal_sign_partial",
    "Verif.Mem.mem_elgamal_sign_verify",
    "Verif.Mem.mem_elgamal_init",
    "Verif.Mem.mem_elgamal_clear",
    "Verif.Mem.mem_elgamal_sign_zero",
    "Verif.Mem.mem_elgamal_verify2_ub"
   ],
   "note": "Proved when no allocation fails and the generator does not make the number 0; verification with components and message not zero, initialising and clearing under all failing requests. False when the generator delivers p - 1: the secret number is 0 and cry_mpi_gcd reads a digit never written (mem_elgamal_sign_zero). False when the first request of an exponentiation fails (mem_elgamal_verify2_ub)."
  },
  {
   "property": "C92",
   "status": "proved",
   "theorems": [
    "Verif.Ram.gcm_seal_ram",
    "Verif.Ram.gcm_open_ram",
    "Verif.Ram.gcm_safe_ram",
    "Verif.Ram.gcm_place_needed",
    "Verif.Ram.gcm_long_tag_ram"
   ],
   "note": "Whole sessions for all admissible placements; the other placements are refuted one by one (gcm_place_needed). A tag of more than 16 bytes is undefined (gcm_long_tag_ram). The cipher context is not part of the memory."
  },
  {
   "property": "C93",
   "status": "proved",
   "theorems": [
    "Verif.Ram.arc4_ram",
    "Verif.Ram.arc4_overlap_wrong",
    "Verif.Ram.trivium_ram",
    "Verif.Ram.trivium_overlap_iff",
    "Verif.Ram.affine_ram",
    "Verif.Ram.affine_overlap_wrong",
    "Verif.Ram.hill_ram",
    "Verif.Ram.hill_tail_ub",
    "Verif.Ram.hill_tail_clobbers"
   ],
   "note": "The contexts are values and not part of the memory."
  },
  {
   "property": "C94",
   "status": "proved",
   "theorems": [
    "Verif.Ram.b64_encode_iff",
    "Verif.Ram.b64_decode_iff",
    "Verif.Ram.b64_decode_rejects",
    "Verif.Ram.b64_empty_ram"
   ],
   "note": "Exact sets of placements, both directions."
  },
  {
   "property": "C95",
   "status": "proved",
   "theorems": [
    "Verif.Ram.wrap_ram",
    "Verif.Ram.unwrap_ram",
    "Verif.Ram.wrap_unwrap_ram",
    "Verif.Ram.wrap_defined_iff",
    "Verif.Ram.unwrap_defined_iff",
    "Verif.Ram.wrap_loses_input",
    "Verif.Ram.wrap_loses_key",
    "Verif.Ram.unwrap_loses_key"
   ],
   "note": "Real AES contexts, including the switch of the context to decryption; the local arrays and the context are values."
  },
  {
   "property": "C96",
   "status": "partial",
   "theorems": [
    "Verif.Mem.mem_is_prime_partial",
    "Verif.Mem.mem_is_prime_accepts",
    "Verif.Mem.mem_is_prime_zero_base",
    "Verif.Mem.mem_is_prime_one",
    "Verif.Mem.mem_is_prime_ub",
    "Verif.Mem.mem_prime_partial"
   ],
   "note": "No allocation fails, bytes drawn without leading zero digit. With failing allocations the statement is false: the modular power called in a Miller-Rabin turn is undefined when its first request fails (mem_is_prime_ub)."
  },
  {
   "property": "C97",
   "status": "partial",
   "theorems": [
    "Verif.Mem.mem_rsa_encrypt_partial",
    "Verif.Mem.mem_rsa_decrypt_partial",
    "Verif.Mem.mem_rsa_verify_partial",
    "Verif.Mem.mem_rsa_roundtrip_partial",
    "Verif.Mem.mem_rsa_sign_verify_partial",
    "Verif.Mem.mem_rsa_nopad",
    "Verif.Mem.mem_rsa_multiblock",
    "Verif.Mem.mem_rsa_eleven",
    "Verif.Mem.mem_rsa_empty",
    "Verif.Mem.mem_rsa_encrypt_ub",
    "Verif.Mem.mem_rsa_init",
    "Verif.Mem.mem_rsa_clear"
   ],
   "note": "Every pattern of failing allocations; when one fails the run may also be undefined (mem_rsa_encrypt_ub, from the modular power). The rest that is missing is false of the code: decryption of several blocks (mem_rsa_multiblock), an empty input (mem_rsa_empty), moduli of eleven bytes (mem_rsa_eleven)."
  },
  {
   "property": "C98",
   "status": "partial",
   "theorems": [
    "Verif.Mpi.div_small_same",
    "Verif.Mpi.div_small_correct_partial",
    "Verif.Mpi.div_small_negative_wrong",
    "Verif.Mpi.inv_bin_correct_partial",
    "Verif.Mpi.inv_bin_not_coprime_wrong",
    "Verif.Mpi.inv_bin_never_ends",
    "Verif.Mpi.inv_bin_both_even_wrong",
    "Verif.Mpi.mul_options_partial",
    "Verif.Mpi.mul_options_comba_wrong",
    "Verif.Mpi.sqr_options_partial",
    "Verif.Mpi.sqr_options_sign_wrong",
    "Verif.Ecp.ecp_mul_bin_partial",
    "Verif.Ecp.ecp_mul_bin_sound",
    "Verif.Ecp.ecp_mul_bin_even_fails"
   ],
   "note": "Division: identical for all operands. Inverse: identical for coprime arguments and modulus above 1; otherwise the binary version returns a wrong value with status 0 or never ends (proved). Points: the same multiple for points of odd order; the versions differ on points of even order (proved). Products: exact for all eight choices of options, except Comba without Karatsuba from 2^w digits on, which is wrong with 8-bit digits (mul_options_comba_wrong). The window version without sliding (CRY_ECP_MUL_WIN only) does not compile."
  },
  {
   "property": "C99",
   "status": "partial",
   "theorems": [
    "Verif.Mem.mem_inv_safe",
    "Verif.Mem.mem_ecp_dbl_safe",
    "Verif.Mem.mem_ecp_add_safe",
    "Verif.Mem.mem_ecp_mul_safe",
    "Verif.Mem.mem_ecdh_safe",
    "Verif.Mem.mem_ecdsa_keygen_safe",
    "Verif.Mem.mem_ecdsa_sign_safe",
    "Verif.Mem.mem_ecdsa_verify_safe_partial",
    "Verif.Mem.mem_ecdsa_verify_ub",
    "Verif.Mem.mem_inv_never_returns"
   ],
   "note": "Proved for every pattern of failing allocations, also for the groups whose coefficient a is an un-normalised zero. Not true of cry_ecdsa_verify: its theorem gives the exact set of patterns (first two requests succeed, one of the next four fails) for which the behaviour is undefined, and proves safety for all others. The functions need not return (proved for cry_mpi_inv)."
  }
 ]
}