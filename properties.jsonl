{"id": "C01", "title": "MPI addition and subtraction are exact", "statement": "For any two big integers a, b (any sign, any length, normalised), cry_mpi_add leaves a+b and cry_mpi_sub leaves a-b in the destination, normalised, with zero represented without a sign; the destination may alias either operand.", "quantifier": "all pairs of signed big integers of any number of digits, every digit base used by the build, all aliasing patterns", "why_tests_cant": "Carry and borrow propagation depends on every digit position and sign/size combination; a test only samples finitely many lengths.", "anchors": ["src/mpi/mpi_add_abs.c:cry_mpi_add_abs", "src/mpi/mpi_add.c:cry_mpi_add", "src/mpi/mpi_sub_abs.c:cry_mpi_sub_abs", "src/mpi/mpi_sub.c:cry_mpi_sub"]}
{"id": "C02", "title": "MPI comparison is the integer order", "statement": "cry_mpi_cmp(a,b) is negative, zero or positive exactly when a<b, a=b, a>b as integers, and cry_mpi_cmp_abs likewise for magnitudes, for normalised operands.", "quantifier": "all pairs of normalised signed big integers", "why_tests_cant": "The result depends on lengths, signs and the most significant differing digit, unbounded in number.", "anchors": ["src/mpi/mpi_cmp.c:cry_mpi_cmp", "src/mpi/mpi_cmp_abs.c:cry_mpi_cmp_abs"]}
{"id": "C03", "title": "MPI multiplication is exact whichever algorithm is selected", "statement": "cry_mpi_mul(r,a,b) leaves exactly a*b for every size: schoolbook, Comba column, Karatsuba and Toom-3 paths (chosen by operand length) all give the same product, including when r aliases an operand.", "quantifier": "all pairs of signed big integers, all lengths on both sides of every algorithm cut-off, recursive splits at every depth", "why_tests_cant": "Cut-over thresholds, recursion depth and carries range over unboundedly many sizes; the accumulator-overflow corner cases are astronomically rare in random tests.", "anchors": ["src/mpi/mpi_mul.c:cry_mpi_mul", "src/mpi/mpi_mul_abs.c:cry_mpi_mul_abs", "src/mpi/mpi_mul_baseline.c", "src/mpi/mpi_mul_comba.c", "src/mpi/mpi_mul_karatsuba.c", "src/mpi/mpi_mul_toom3.c", "src/mpi/mpi_mul.c:cry_mpi_mul_dig"]}
{"id": "C04", "title": "MPI squaring returns the non-negative square", "statement": "cry_mpi_sqr(r,a) leaves exactly a*a in r, which is never negative, whatever r held before the call.", "quantifier": "all signed big integers a and every previous content of the destination", "why_tests_cant": "Needs every operand and every prior state of the destination object.", "anchors": ["src/mpi/mpi_sqr.c", "src/mpi/mpi_sqr_comba.c", "src/mpi/mpi_sqr_baseline.c"]}
{"id": "C05", "title": "Magnitude division satisfies the division identity", "statement": "Dividing magnitudes: for b != 0 the quotient q and remainder r satisfy |a| = q*|b| + r with 0 <= r < |b|; division by zero is reported as an error.", "quantifier": "all pairs of big integers of any number of digits, every quotient-digit estimate reached by the long division loop", "why_tests_cant": "The quotient-digit correction and add-back steps trigger with probability about 1/2^64 per step, so random tests almost never exercise them.", "anchors": ["src/mpi/mpi_div_abs.c:cry_mpi_div_abs"]}
{"id": "C06", "title": "Signed division satisfies a = q*b + r", "statement": "cry_mpi_div(q,r,a,b) for b != 0 returns q, r with a = q*b + r and 0 <= r < |b| for every sign combination, and either output pointer may be NULL.", "quantifier": "all pairs of signed big integers, all NULL/non-NULL output combinations", "why_tests_cant": "Sign handling interacts with exactness of the division and with size shortcuts for every operand pair.", "anchors": ["src/mpi/mpi_div.c:cry_mpi_div", "src/mpi/mpi_div_abs.c:cry_mpi_div_abs"]}
{"id": "C07", "title": "Modular reduction is Euclidean", "statement": "cry_mpi_mod(r,a,m) with m>0 leaves the unique value in [0,m) congruent to a, also for negative a and when r aliases a.", "quantifier": "all signed a and all positive moduli m", "why_tests_cant": "All later public-key code relies on it for every value; tests sample a few.", "anchors": ["include/cry/mpi.h:cry_mpi_mod", "src/mpi/mpi_div.c"]}
{"id": "C08", "title": "Shifts multiply and divide by powers of two", "statement": "cry_mpi_shl(a,n) gives a*2^n and cry_mpi_shr(a,n) gives the magnitude divided by 2^n rounded towards zero keeping the sign, for every shift amount, with a normalised result.", "quantifier": "all big integers and all shift counts, in-place and not", "why_tests_cant": "Every combination of digit offset and bit offset and length must be covered.", "anchors": ["src/mpi/mpi_shl.c", "src/mpi/mpi_shr.c"]}
{"id": "C09", "title": "Modular exponentiation computes b^e mod m", "statement": "cry_mpi_mod_exp(r,b,e,m) with e>=0, m>0 leaves b^e mod m in [0,m); negative exponents or moduli are rejected.", "quantifier": "all bases, all exponents of any bit length, all moduli", "why_tests_cant": "Square-and-multiply runs once per exponent bit; correctness for all exponents is an induction.", "anchors": ["src/mpi/mpi_mod_exp.c:cry_mpi_mod_exp", "src/mpi/mpi_exp.c:cry_mpi_exp"]}
{"id": "C10", "title": "Modular inverse is correct or fails", "statement": "cry_mpi_inv(r,a,m) with m>0 succeeds exactly when gcd(a,m)=1 and then leaves r in [0,m) with a*r congruent to 1 mod m.", "quantifier": "all pairs (a,m) with m>0", "why_tests_cant": "The extended Euclid loop invariant has to hold at every iteration for all operands.", "anchors": ["src/mpi/mpi_inv.c:cry_mpi_inv"]}
{"id": "C11", "title": "GCD is the greatest common divisor", "statement": "cry_mpi_gcd(r,x,y) leaves the non-negative greatest common divisor of x and y, for all inputs including zero and negative ones.", "quantifier": "all pairs of signed big integers", "why_tests_cant": "Binary gcd terminates and is right only by an invariant over all iterations; zero/sign corners are easily missed.", "anchors": ["src/mpi/mpi_gcd.c"]}
{"id": "C12", "title": "LCM is the least common multiple", "statement": "cry_mpi_lcm(r,x,y) leaves the least common multiple of x and y and succeeds for all inputs.", "quantifier": "all pairs of signed big integers", "why_tests_cant": "Depends on gcd and division for all inputs and signs.", "anchors": ["src/mpi/mpi_lcm.c"]}
{"id": "C13", "title": "Integer square root is the floor of the square root", "statement": "cry_mpi_sqrt(r,a) for a>=0 terminates and leaves the unique s with s^2 <= a < (s+1)^2; negative a is rejected.", "quantifier": "all non-negative big integers of any length", "why_tests_cant": "The Newton iteration starts from a coarse length-based guess and its exit test could stop one step early or late near perfect squares of any size.", "anchors": ["src/mpi/mpi_sqrt.c"]}
{"id": "C14", "title": "Big-endian binary import/export round-trips", "statement": "Storing a big integer into a big-endian buffer and loading it back returns the same magnitude; a buffer too small is rejected; with padding requested the buffer is filled exactly with leading zeros; loading replaces the previous value entirely (the result is non-negative).", "quantifier": "all big integers, all buffer sizes, all previous contents of the destination", "why_tests_cant": "Requires all lengths relative to digit and buffer boundaries and all prior states.", "anchors": ["src/mpi/mpi_bin.c:cry_mpi_load_bin", "src/mpi/mpi_bin.c:cry_mpi_store_bin", "include/cry/mpi.h:cry_mpi_count_bytes"]}
{"id": "C15", "title": "String import/export round-trips and rejects non-digits", "statement": "For every radix in 2..16, cry_mpi_store_str followed by cry_mpi_load_str with the same radix returns the same number; loading rejects every string containing a character that is not a digit of the radix.", "quantifier": "all big integers, all radices 2..16, all strings", "why_tests_cant": "All numbers and all strings: unbounded.", "anchors": ["src/mpi/mpi_str.c:cry_mpi_load_str", "src/mpi/mpi_str.c:cry_mpi_store_str"]}
{"id": "C16", "title": "Native integer import/export is exact", "statement": "cry_mpi_set_int stores exactly the given long; cry_mpi_get_int returns the value when it fits a long and an error otherwise.", "quantifier": "all 64-bit values and all big integers", "why_tests_cant": "The range boundary has 2^64 candidates on each side.", "anchors": ["src/mpi/mpi_core.c:cry_mpi_set_int", "src/mpi/mpi_core.c:cry_mpi_get_int"]}
{"id": "C17", "title": "Random numbers have the requested size", "statement": "cry_mpi_rand(x,bits) yields a non-negative value of exactly `bits` bits, and cry_mpi_rand_range(x,max) with max>0 yields a value in [0,max), for every output of the random generator.", "quantifier": "all bit counts, all generator outputs, all upper bounds", "why_tests_cant": "Depends on all random byte strings; the failing ones are too rare to sample.", "anchors": ["src/mpi/mpi_rand.c"]}
{"id": "C18", "title": "Primality test never rejects a prime and terminates", "statement": "cry_mpi_is_prime returns 1 for every prime and never 1 for a number with a small odd prime factor (other than itself), for every output of the random generator, and it terminates for all inputs.", "quantifier": "all positive integers, all random choices of Miller-Rabin bases", "why_tests_cant": "Quantifies over all primes and all random bases.", "anchors": ["src/mpi/mpi_prime.c:cry_mpi_is_prime", "src/mpi/mpi_prime.c:cry_mpi_prime"]}
{"id": "C19", "title": "Size and parity queries agree with the value", "statement": "cry_mpi_count_bits and cry_mpi_count_bytes are the bit and byte length of the magnitude; cry_mpi_is_zero, cry_mpi_is_odd and cry_mpi_is_even decide zero and parity.", "quantifier": "all normalised big integers", "why_tests_cant": "All lengths and all top digits.", "anchors": ["src/mpi/mpi_core.c:cry_mpi_count_bits", "src/mpi/mpi_core.c:digit_bits", "include/cry/mpi.h:cry_mpi_count_bytes", "include/cry/mpi.h:cry_mpi_is_odd"]}
{"id": "C20", "title": "List initialisation is all-or-nothing", "statement": "cry_mpi_init_list either initialises every listed object and returns 0, or returns non-zero and leaves none of them holding memory, whatever the allocation failure point.", "quantifier": "all list lengths and all positions of the first allocation failure", "why_tests_cant": "Every failure point of every list length.", "anchors": ["src/mpi/mpi_list.c:cry_mpi_init_list", "src/mpi/mpi_list.c:cry_mpi_clear_list", "src/misc.c:cry_list_init", "src/ecp/ecp_list.c"]}
{"id": "C21", "title": "memxor works for every overlap of its buffers", "statement": "After cry_memxor(dst,src,n) every dst[i], i<n, equals old dst[i] xor old src[i], and no other byte changes, for every relative placement of dst and src.", "quantifier": "all memory contents, lengths and relative offsets", "why_tests_cant": "All offsets and lengths.", "anchors": ["src/crypt/memxor.c:cry_memxor"]}
{"id": "C22", "title": "memxor2 works for every overlap of its buffers", "statement": "After cry_memxor2(dst,s1,s2,n) every dst[i] equals old s1[i] xor old s2[i] and no byte outside dst changes, for every relative placement of the three buffers.", "quantifier": "all memory contents, lengths and all triples of offsets", "why_tests_cant": "The overlap geometry is a three-parameter family; a test fixes a few triples (the one in the suite happens to satisfy n = 1 mod overlap).", "anchors": ["src/crypt/memxor.c:cry_memxor2"]}
{"id": "C23", "title": "CBC decryption inverts encryption", "statement": "For every block cipher, key and IV, CBC-decrypting a CBC-encrypted whole-block message returns the message, in place or between buffers, and processing a message in several calls split at block boundaries gives the same bytes and the same chaining state as one call.", "quantifier": "all block ciphers, keys, IVs, messages of any number of blocks, all splits at block boundaries", "why_tests_cant": "All message lengths and split histories.", "anchors": ["src/crypt/cbc.c:cry_cbc_encrypt", "src/crypt/cbc.c:cry_cbc_decrypt"]}
{"id": "C24", "title": "CFB decryption inverts encryption", "statement": "For every block cipher, key and IV, CFB-decrypting a CFB-encrypted message returns the message.", "quantifier": "all block ciphers, keys, IVs and messages", "why_tests_cant": "All messages of any length.", "anchors": ["src/crypt/cfb.c:cry_cfb_crypt", "include/cry/cfb.h:cry_cfb_decrypt"]}
{"id": "C25", "title": "CFB8 decryption inverts encryption under any chunking", "statement": "For every block cipher and IV, CFB8 decryption of a CFB8 ciphertext returns the message, and splitting the stream into arbitrary calls on either side does not change the result.", "quantifier": "all block ciphers, IVs, messages and all ways of splitting them into calls", "why_tests_cant": "All chunkings; short first chunks are the failing corner.", "anchors": ["src/crypt/cfb.c:cry_cfb8_encrypt", "src/crypt/cfb.c:cry_cfb8_decrypt"]}
{"id": "C26", "title": "CTR mode is self-inverse and consistent", "statement": "For every block cipher and counter, applying CTR twice from the same counter restores the data; in-place and out-of-place runs give equal bytes; splitting at block multiples does not change the output; the counter advances as a big-endian integer modulo its width.", "quantifier": "all block ciphers, counters, counter widths, messages and splits at block boundaries", "why_tests_cant": "Counter wrap-around and buffer-size interplay occur only for particular lengths and widths.", "anchors": ["src/crypt/ctr.c:cry_ctr_encrypt", "src/misc.h:CRY_INCREMENT_BE"]}
{"id": "C27", "title": "GCM decryption inverts encryption with equal tags", "statement": "For every key, IV, associated data and message, GCM-decrypting the ciphertext returns the message and both sides compute the same tag, and splitting data at 16-byte boundaries does not change ciphertext or tag.", "quantifier": "all block ciphers with 16-byte blocks, keys, IVs, AADs, messages and 16-byte-aligned splits", "why_tests_cant": "All lengths and splits.", "anchors": ["src/crypt/gcm.c"]}
{"id": "C28", "title": "GHASH multiplication is multiplication in GF(2^128)", "statement": "The multiplication used for GCM authentication is exactly multiplication of polynomials over GF(2) modulo x^128+x^7+x^2+x+1 (in GCM bit order), hence commutative, associative and distributive.", "quantifier": "all 2^256 pairs of 128-bit blocks", "why_tests_cant": "2^256 input pairs.", "anchors": ["src/crypt/gcm.c:gcm_gf_mul"]}
{"id": "C29", "title": "CMAC is independent of chunking and equals its definition", "statement": "For every block cipher and key, feeding a message to CMAC in any sequence of update calls yields the tag defined by RFC 4493 of the whole message.", "quantifier": "all ciphers, keys, messages and all ways to split them into update calls", "why_tests_cant": "All splits of all messages.", "anchors": ["src/crypt/cmac.c"]}
{"id": "C30", "title": "HMAC is independent of chunking and equals its definition", "statement": "For every hash with a 64-byte block, key of any length and message, any sequence of updates yields H((K^opad)||H((K^ipad)||m)), with keys longer than 64 bytes hashed first.", "quantifier": "all streaming hash functions, keys, messages and splits", "why_tests_cant": "All key lengths and splits.", "anchors": ["src/crypt/hmac.c", "include/cry/hmac.h"]}
{"id": "C31", "title": "AES key wrap round-trips and rejects corruption", "statement": "For every key-encryption key and payload of a positive multiple of 8 bytes, cry_aes_unwrap of cry_aes_wrap returns the payload and success; when the integrity value does not match, the call fails and the output is all zero.", "quantifier": "all keys, all payload lengths, all corrupted inputs", "why_tests_cant": "All payloads, lengths and corruptions.", "anchors": ["src/utils/aes_wrap.c"]}
{"id": "C32", "title": "AES decryption inverts encryption for every key and equals FIPS-197", "statement": "For every 128/192/256-bit key and block, decrypting with a freshly keyed context returns what was encrypted, and the table-driven round equals SubBytes/ShiftRows/MixColumns/AddRoundKey of the standard.", "quantifier": "all keys of each size and all 2^128 blocks", "why_tests_cant": "2^128 blocks times 2^256 keys.", "anchors": ["src/crypt/aes.c:cry_aes_encrypt", "src/crypt/aes.c:cry_aes_decrypt", "src/crypt/aes.c:cry_aes_key_set", "src/crypt/aes.c:key_invert"]}
{"id": "C33", "title": "An AES context can alternate between encryption and decryption", "statement": "Encrypting with a context gives the same ciphertext no matter which encrypt and decrypt calls were made on that context since the key was set.", "quantifier": "all keys, blocks and all histories of encrypt/decrypt calls", "why_tests_cant": "All call histories.", "anchors": ["src/crypt/aes.c:key_invert", "src/crypt/aes.c:cry_aes_encrypt", "src/crypt/aes.c:cry_aes_decrypt"]}
{"id": "C34", "title": "DES and triple DES decryption invert encryption", "statement": "For every 8-byte or 24-byte key and every sequence of blocks cry_des_decrypt restores what cry_des_encrypt produced; single DES satisfies the complementation property.", "quantifier": "all keys and all blocks", "why_tests_cant": "2^64 blocks times 2^56 or 2^168 keys.", "anchors": ["src/crypt/des.c"]}
{"id": "C35", "title": "SHA-256 streaming equals the FIPS 180 definition", "statement": "For every message and every way of splitting it into update calls, the digest equals the Merkle-Damgard iteration of the compression function over the FIPS-padded message.", "quantifier": "all messages below 2^61 bytes, all splits", "why_tests_cant": "All lengths and splits.", "anchors": ["src/hash/sha256.c"]}
{"id": "C36", "title": "SHA-1 streaming equals the FIPS 180 definition", "statement": "For every message and every split into update calls (each below 4 GiB), the digest equals the iteration of the compression function over the padded message.", "quantifier": "all messages, all splits", "why_tests_cant": "All lengths and splits.", "anchors": ["src/hash/sha1.c"]}
{"id": "C37", "title": "MD5 streaming equals the RFC 1321 definition", "statement": "For every message and every split into update calls, the digest equals the iteration of the MD5 compression function over the padded message.", "quantifier": "all messages, all splits", "why_tests_cant": "All lengths and splits.", "anchors": ["src/hash/md5.c"]}
{"id": "C38", "title": "SHA-512/384 streaming equals the FIPS 180 definition", "statement": "For every message and every split, the SHA-512 (and SHA-384) digest equals the iteration of the compression function over the padded message including its 128-bit length.", "quantifier": "all messages, all splits", "why_tests_cant": "All lengths modulo the block size; the tests in the repository use few lengths.", "anchors": ["src/hash/sha512.c"]}
{"id": "C39", "title": "Table-driven CRC is the polynomial remainder", "statement": "Each table-driven CRC-16/CRC-32 equals bit-serial polynomial division with its documented generator for every message, is independent of the split into updates, and detects every single-bit error and every error burst no longer than the CRC width.", "quantifier": "all messages, all splits, all single-burst error patterns", "why_tests_cant": "All messages and error patterns.", "anchors": ["src/crc/crc16.c", "src/crc/crc32.c", "src/crc/crc16_ccitt.c", "src/crc/crc16_ibm.c", "src/crc/crc16_dnp.c", "src/crc/crc32_eth.c"]}
{"id": "C40", "title": "Base64 decoding inverts encoding and rejects malformed text", "statement": "For every non-empty byte string, decoding its Base64 encoding returns it; encoding has length 4*ceil(n/3); decoding rejects text whose length is not a multiple of four or that contains a character outside the alphabet.", "quantifier": "all byte strings and all candidate texts", "why_tests_cant": "All strings.", "anchors": ["src/crypt/base64.c"]}
{"id": "C41", "title": "ARC4 is self-inverse and splits anywhere", "statement": "For every non-empty key, decrypting an ARC4 ciphertext restores the message, splitting the stream at arbitrary points does not matter, and the internal table always stays a permutation of 0..255.", "quantifier": "all keys, messages, splits", "why_tests_cant": "All states reachable after any number of bytes.", "anchors": ["src/crypt/arc4.c"]}
{"id": "C42", "title": "Trivium is self-inverse and re-keying forgets the past", "statement": "For every key and IV, applying Trivium twice restores the data; after setting key and IV the keystream does not depend on anything the context did before; the word-parallel update equals 32 steps of the bit-serial cipher.", "quantifier": "all keys, IVs, messages and prior context histories", "why_tests_cant": "All prior states and messages.", "anchors": ["src/crypt/trivium.c"]}
{"id": "C43", "title": "Affine cipher decrypts what it encrypts", "statement": "cry_affine_init succeeds exactly when every multiplier is invertible modulo 256, and then decrypting an encrypted message of any length returns it.", "quantifier": "all keys and messages", "why_tests_cant": "All keys and messages.", "anchors": ["src/crypt/affine.c", "src/misc.c:cry_long_inv"]}
{"id": "C44", "title": "Hill cipher decrypts what it encrypts", "statement": "For every key matrix accepted by cry_hill_init, decrypting an encrypted message of any length returns it.", "quantifier": "all key dimensions and matrices, all messages", "why_tests_cant": "All matrices and messages.", "anchors": ["src/crypt/hill.c"]}
{"id": "C45", "title": "AES-based PRNG output does not depend on request sizes", "statement": "After seeding, the concatenation of the outputs of any sequence of cry_prng_aes_rand requests depends only on the seed and the total length.", "quantifier": "all seeds and all sequences of request sizes", "why_tests_cant": "All sequences of request sizes.", "anchors": ["src/prng/prng_aes.c"]}
{"id": "C46", "title": "LFSR113 seeding is deterministic and never degenerates", "statement": "After cry_prng_lfsr113_init with a given seed the output depends only on that seed, and none of the four component registers is ever stuck at zero.", "quantifier": "all seeds, all prior generator states, all numbers of steps", "why_tests_cant": "All seeds and histories.", "anchors": ["src/prng/prng_lfsr113.c"]}
{"id": "C47", "title": "Diffie-Hellman parties agree", "statement": "When two parties use the same p and g and exchange tokens, both finalize with the same shared secret, for all secret exponents drawn.", "quantifier": "all primes/moduli p>0, bases and secret exponents", "why_tests_cant": "All exponents and moduli.", "anchors": ["src/crypt/dh.c"]}
{"id": "C48", "title": "DSA signatures made with a key verify under it", "statement": "For valid domain parameters and key pair, every signature produced by cry_dsa_sign for a message is accepted by cry_dsa_verify for the message.", "quantifier": "all parameters, keys, messages, all nonces", "why_tests_cant": "All keys, messages and nonces.", "anchors": ["src/crypt/dsa.c:cry_dsa_sign", "src/crypt/dsa.c:cry_dsa_verify"]}
{"id": "C49", "title": "DSA verification accepts only signatures satisfying the equation", "statement": "cry_dsa_verify returns success only if 0<r<q, 0<s<q and (g^u1*y^u2 mod p) mod q = r with u1 = z/s, u2 = r/s mod q.", "quantifier": "all keys, messages and candidate signatures", "why_tests_cant": "All candidate signatures, in particular adversarial ones.", "anchors": ["src/crypt/dsa.c:cry_dsa_verify"]}
{"id": "C50", "title": "ElGamal signatures made with a key verify under it", "statement": "For a prime p and y = g^d mod p, every signature produced by cry_elgamal_sign for a message is accepted by cry_elgamal_verify.", "quantifier": "all primes, generators, keys, messages and nonces", "why_tests_cant": "All keys, messages and nonces.", "anchors": ["src/crypt/elgamal.c"]}
{"id": "C51", "title": "ECDSA signatures made with a key verify under it", "statement": "For a group of prime order n and public key q = d*G, every signature produced by cry_ecdsa_sign is accepted by cry_ecdsa_verify.", "quantifier": "all curves, keys, messages, nonces", "why_tests_cant": "All keys, messages and nonces.", "anchors": ["src/crypt/ecdsa.c"]}
{"id": "C52", "title": "RSA decryption inverts encryption", "statement": "For a valid key (n=p*q, e*d = 1 mod lcm(p-1,q-1)) cry_rsa_decrypt of cry_rsa_encrypt returns the message for messages of any length, with PKCS#1 v1.5 padding.", "quantifier": "all valid keys, messages of any length, all padding bytes", "why_tests_cant": "All messages longer than one block and all keys.", "anchors": ["src/crypt/rsa.c:cry_rsa_encrypt", "src/crypt/rsa.c:cry_rsa_decrypt"]}
{"id": "C53", "title": "RSA PKCS#1 padding round-trips and malformed padding is rejected", "statement": "Removing the padding added to any message that fits returns the message; a block whose padding header is wrong is rejected.", "quantifier": "all messages, all random padding bytes, all blocks", "why_tests_cant": "All padding strings.", "anchors": ["src/crypt/rsa.c:padding_add", "src/crypt/rsa.c:padding_del"]}
{"id": "C54", "title": "RSA signatures verify", "statement": "For a valid key, cry_rsa_verify accepts exactly what cry_rsa_sign produced for the same input.", "quantifier": "all valid keys and inputs", "why_tests_cant": "All keys and inputs.", "anchors": ["src/crypt/rsa.c:cry_rsa_sign", "src/crypt/rsa.c:cry_rsa_verify"]}
{"id": "C55", "title": "Elliptic-curve addition and doubling follow the group law", "statement": "For points on a curve over a prime field, cry_ecp_add and cry_ecp_dbl compute the chord-and-tangent sum, including infinity, equal and opposite points, with reduced coordinates, aliasing allowed.", "quantifier": "all curves over prime fields, all pairs of points", "why_tests_cant": "All pairs of points.", "anchors": ["src/ecp/ecp_add.c", "src/ecp/ecp_dbl.c"]}
{"id": "C56", "title": "Elliptic-curve scalar multiplication is repeated addition", "statement": "cry_ecp_mul(r,P,k) computes k times P for every scalar k.", "quantifier": "all curves, points, scalars of any length", "why_tests_cant": "The windowed algorithm scans scalar bits across digit boundaries; all scalars must be covered.", "anchors": ["src/ecp/ecp_mul.c"]}
{"id": "C57", "title": "ECDH parties agree", "statement": "When two parties use the same group and exchange their public points, both compute the same shared point.", "quantifier": "all curves, base points, secret scalars", "why_tests_cant": "All secrets.", "anchors": ["src/crypt/ecdh.c"]}
{"id": "C58", "title": "Built-in curve constants define curves containing their base point", "statement": "For every built-in group the base point has reduced coordinates, lies on the curve and the curve is non-singular.", "quantifier": "all built-in groups", "why_tests_cant": "A finite check, but each constant has hundreds of bits and a unit test exercising arithmetic does not isolate it.", "anchors": ["src/ecp/ecp_curves.c"]}
{"id": "C59", "title": "cry_long_inv computes modular inverses", "statement": "For every value and every modulus other than 0, cry_long_inv ends and returns the inverse of the value in the range below the modulus when the two are coprime, and 0 when they are not.", "quantifier": "all pairs of 64-bit machine words", "why_tests_cant": "2^128 pairs; the intermediate coefficients are kept in words whose overflow depends on the operands.", "anchors": ["src/misc.c"]}
{"id": "C60", "title": "ElGamal verification accepts only well-formed signatures", "statement": "cry_elgamal_verify accepts a pair (r, s) for a message only if 0 < r < p and y^r * r^s is congruent to g^z modulo p, z being the number read from the message.", "quantifier": "all parameters, public keys, messages and pairs (r, s) of any size", "why_tests_cant": "Acceptance of values outside the range is a statement about all forgeries, not about sampled bad signatures.", "anchors": ["src/crypt/elgamal.c"]}
{"id": "C61", "title": "Built-in groups have prime order and the base point generates them", "statement": "For every built-in group p and n are prime, the curve has exactly n points, and every point is a multiple of the base point.", "quantifier": "all built-in groups, all points on their curves", "why_tests_cant": "primality and group order of 192- to 521-bit numbers cannot be observed by running operations", "anchors": ["src/ecp/ecp_curves.c:70-714"]}
{"id": "C62", "title": "On the built-in curves point arithmetic and ECDH have no exceptional cases", "statement": "For every built-in group, cry_ecp_add, cry_ecp_dbl and cry_ecp_mul with a scalar of any length succeed on all points and give the sum, the double and the multiple; ECDH with any secrets succeeds and both parties agree.", "quantifier": "all built-in groups, all points, all non-negative scalars", "why_tests_cant": "about 2^256 points and pairs per group; the exceptional cases are not hit by random tests", "anchors": ["src/ecp/ecp_add.c:7-67", "src/ecp/ecp_dbl.c:6-52", "src/ecp/ecp_mul.c:12-107", "src/crypt/ecdh.c:20-28"]}
{"id": "C63", "title": "Prime generation returns an accepted number of the length asked for", "statement": "When cry_mpi_prime returns 0, the number has exactly the length asked for, is odd, has its two highest bits set, was accepted by the primality test and is the first accepted candidate; it returns 0 whenever one of the permitted candidates is accepted, and always ends.", "quantifier": "all outputs of the random generator, all lengths and limits on the turns", "why_tests_cant": "the candidates depend on random bytes; short numbers, endless tests and acceptance in the last turn need rare draws", "anchors": ["src/mpi/mpi_prime.c:222-277"]}
{"id": "C64", "title": "RSA key generation yields a usable key", "statement": "When cry_rsa_keygen returns 0, n = p*q has the length asked for with two different accepted primes, e is coprime to (p-1)*(q-1) and d is the inverse of e.", "quantifier": "all outputs of the random generator, all lengths and public exponents", "why_tests_cant": "a failed search is only visible after 10000 turns; the private exponent is not looked at by the encryption tests", "anchors": ["src/crypt/rsa.c"]}
{"id": "C65", "title": "DSA key generation yields a usable key", "statement": "When cry_dsa_keygen returns 0, q has 160 bits, p has 512+64*l bits, q divides p-1, g has order q modulo p, 0 < x < q and y = g^x mod p; signatures made with the key verify.", "quantifier": "all outputs of the random generator, all sizes l", "why_tests_cant": "range of the private key and order of g are statements about all random draws", "anchors": ["src/crypt/dsa.c:137-195"]}
{"id": "C66", "title": "The modes over the library's own ciphers are the standards' compositions", "statement": "A freshly keyed AES context used through CBC, CTR, CFB, CFB8 (encryption), GCM, CMAC or key wrap produces exactly the output of the standard mode over FIPS 197, without the context changing between calls of one direction; a DES or triple DES context used through CBC decrypts what it encrypted.", "quantifier": "all keys of 16, 24 or 32 bytes, all IVs, associated data, messages and chunkings", "why_tests_cant": "known-answer tests cover a few vectors; the claim composes key schedule, tables, mode arithmetic and polynomial multiplication for all inputs", "anchors": ["src/crypt/aes.c", "src/crypt/cbc.c", "src/crypt/ctr.c", "src/crypt/cfb.c", "src/crypt/gcm.c", "src/crypt/cmac.c", "src/utils/aes_wrap.c"]}
{"id": "C67", "title": "Basic number operations are safe and leak-free for any aliasing and any failing allocation", "statement": "cry_mpi_init, clear, copy, abs, add_abs, sub_abs, add, sub, shl, shr, cmp and cmp_abs on initialised numbers never access memory out of bounds, read unwritten memory or hang, whichever of the objects are the same and whichever malloc/realloc calls fail; they return 0 with the right integer in the result, or -1 after a failed allocation with the result still a valid number; no other number changes and no block leaks or is freed twice.", "quantifier": "all numbers and capacities, all ways objects coincide, all patterns of failing allocations", "why_tests_cant": "every combination of aliasing, capacity and failing allocation matters; unit tests run with an allocator that does not fail and fresh results", "anchors": ["src/mpi/mpi_core.c:5-166", "src/mpi/mpi_add_abs.c:3-48", "src/mpi/mpi_sub_abs.c:3-47", "src/mpi/mpi_add.c:3-34", "src/mpi/mpi_sub.c:6-33", "src/mpi/mpi_shl.c:6-86", "src/mpi/mpi_shr.c:3-74", "src/mpi/mpi_cmp.c:6-20"]}
{"id": "C68", "title": "Multiplication and squaring are safe and leak-free for any aliasing and any failing allocation", "statement": "cry_mpi_mul, mul_dig and sqr on initialised numbers of any size, with all temporaries of the Karatsuba and Toom-3 branches, never access memory out of bounds, read unwritten memory or hang, whichever of the objects are the same and whichever malloc/realloc calls fail; they return 0 with the right integer in the result, or -1 after a failed allocation with the result still a valid number; no other number changes and no block leaks or is freed twice.", "quantifier": "all numbers and capacities, all ways objects coincide, all patterns of failing allocations, all depths of the recursion", "why_tests_cant": "the clean-up paths run only when one particular allocation out of hundreds fails; the recursive branches need operands of thousands of bits", "anchors": ["src/mpi/mpi_mul.c", "src/mpi/mpi_mul_comba.c", "src/mpi/mpi_mul_karatsuba.c", "src/mpi/mpi_mul_toom3.c", "src/mpi/mpi_sqr.c", "src/mpi/mpi_sqr_comba.c", "src/mpi/mpi_sqr_karatsuba.c"]}
{"id": "C69", "title": "Division is safe and leak-free for any aliasing and any failing allocation", "statement": "cry_mpi_div_abs, cry_mpi_div and cry_mpi_mod on initialised numbers and a divisor other than 0 never access memory out of bounds, read unwritten memory or hang, whichever of the inputs coincide with the outputs, whichever output is NULL and whichever malloc/realloc calls fail; they return 0 with the right quotient and remainder, or -1 after a failed allocation with the outputs still valid numbers; no other number changes and no block leaks or is freed twice. Division by 0 returns -1 and changes nothing.", "quantifier": "all numbers and capacities, all ways objects coincide, all patterns of failing allocations", "why_tests_cant": "five temporaries and dozens of allocation points; the number of combinations of aliasing, signs and failing requests is out of reach of tests", "anchors": ["src/mpi/mpi_div_abs.c:77-222", "src/mpi/mpi_div.c:3-27"]}
{"id": "C70", "title": "Powers are computed safely and without leaks for any aliasing and any failing allocation", "statement": "cry_mpi_mod_exp with a positive modulus and cry_mpi_exp, exponent not negative, never access memory out of bounds, read unwritten memory or hang, whichever of base, exponent, modulus and result are the same object and whichever malloc/realloc calls fail; they return 0 with the right power (1 for exponent 0), or -1 after a failed allocation with the result as it was; no other number changes and no block leaks or is freed twice. A negative exponent returns -1 and changes nothing.", "quantifier": "all numbers and capacities, all ways objects coincide, all patterns of failing allocations", "why_tests_cant": "thousands of allocations per call, each of which may be the one that fails; tests run with an allocator that does not fail", "anchors": ["src/mpi/mpi_mod_exp.c:6-33", "src/mpi/mpi_exp.c:3-6"]}
{"id": "C71", "title": "Common divisors and multiples are computed safely and without leaks", "statement": "cry_mpi_gcd of numbers other than 0 and cry_mpi_lcm of positive numbers never access memory out of bounds, read unwritten memory or hang, whichever objects coincide and whichever malloc/realloc calls fail; they return 0 with the greatest common divisor (up to sign, positive if the second number is) or least common multiple, or -1 after a failed allocation with the result still a valid number; no other number changes and no block leaks or is freed twice.", "quantifier": "all numbers and capacities, all ways objects coincide, all patterns of failing allocations", "why_tests_cant": "inside the loop of gcd every status is lost, so only a proof that those calls cannot fail shows that no failure is reported as success", "anchors": ["src/mpi/mpi_gcd.c:7-67", "src/mpi/mpi_lcm.c:6-20"]}
{"id": "C72", "title": "Modular inverses are computed safely and without leaks", "statement": "cry_mpi_inv with a positive modulus never accesses memory out of bounds, reads unwritten memory or hangs, whichever objects coincide and whichever malloc/realloc calls fail; it returns 0 with the inverse reduced modulo m, or -1 if there is none or after a failed allocation; no other number changes and no block leaks or is freed twice.", "quantifier": "all numbers and capacities, all ways objects coincide, all patterns of failing allocations", "why_tests_cant": "no status inside the loop is looked at; a wrong inverse reported as right needs one particular allocation to fail", "anchors": ["src/mpi/mpi_inv.c:11-49"]}
{"id": "C73", "title": "Integer square roots are computed safely and without leaks", "statement": "cry_mpi_sqrt of a number that is not negative never accesses memory out of bounds, reads unwritten memory or hangs, in place or not and whichever malloc/realloc calls fail; it returns 0 with the largest integer whose square is at most the number, or -1 after a failed allocation with the result as it was; no other number changes and no block leaks. A negative number returns -1 and changes nothing.", "quantifier": "all numbers and capacities, both ways objects may coincide, all patterns of failing allocations", "why_tests_cant": "the Newton iteration makes a division with five temporaries per turn; each allocation of each turn may be the one that fails", "anchors": ["src/mpi/mpi_sqrt.c:51-95"]}
{"id": "C74", "title": "Binary import and export stay inside their buffers", "statement": "cry_mpi_load_bin and cry_mpi_init_bin read a big-endian number of any length into a number, or return -1 after a failed allocation (load: number as before, init: owning nothing). cry_mpi_store_bin writes exactly the padded or the minimal big-endian magnitude, touching no other byte, or returns -1 and writes nothing if it does not fit. None of them accesses memory out of bounds, reads unwritten memory or leaks.", "quantifier": "all numbers, byte strings, buffer sizes and contents, offsets, patterns of failing allocations", "why_tests_cant": "off-by-one writes at digit boundaries depend on every length modulo the digit size and on buffer contents that tests do not inspect", "anchors": ["src/mpi/mpi_bin.c:6-84"]}
{"id": "C75", "title": "String export stays inside its buffer and leaks nothing", "statement": "cry_mpi_store_str with a radix from 2 to 16 and a buffer for the string and its terminating 0 writes exactly the sign, the digits without leading zeros and the 0, touching no other byte; or it returns -1 after a failed allocation having written at most inside the room of the string. It never accesses memory out of bounds, reads unwritten memory or hangs; no number changes, no block leaks. Other radices return -1 and write nothing.", "quantifier": "all numbers, radices, buffers, patterns of failing allocations", "why_tests_cant": "in-place hexadecimal expansion and in-place reversal read what they have just written; overruns show only with guard bytes for each length and sign", "anchors": ["src/mpi/mpi_str.c:44-187"]}
{"id": "C76", "title": "Printing a number is safe", "statement": "cry_mpi_print with a radix from 2 to 16 prints the number or, after a failed allocation, an error message; it never accesses memory out of bounds, leaks nothing and changes no number.", "quantifier": "all numbers, radices and patterns of failing allocations", "why_tests_cant": "the size of the temporary buffer is computed from the number of bytes for every radix; whether it suffices is a statement about all numbers", "anchors": ["src/mpi/mpi_print.c:5-23", "src/mpi/mpi_str.c:136-187"]}
{"id": "C77", "title": "String import is safe and leaks nothing", "statement": "cry_mpi_load_str and cry_mpi_init_str of an optional sign and digits of a radix from 2 to 36 give that number; after a failed allocation, or if a letter or digit is not one of the radix (other than 16), they return -1, and load leaves the number 0, init owning nothing. They never access memory out of bounds or read unwritten memory; no other number changes, no block leaks.", "quantifier": "all strings of digits of any length, radices, old contents of the number, patterns of failing allocations", "why_tests_cant": "every character makes a multiplication and an addition whose allocations may fail; the clean-up clears the number that is then written to once more", "anchors": ["src/mpi/mpi_str.c:5-42", "src/mpi/mpi_str.c:75-133", "src/mpi/mpi_str.c:192-203"]}
{"id": "C78", "title": "CBC works on any placement of its buffers", "statement": "cry_cbc_encrypt and cry_cbc_decrypt read exactly the whole blocks of the source, write exactly the standard CBC ciphertext (plaintext) of them to the destination and the last ciphertext block to the chaining value, wherever source and destination lie in memory (in place, apart, overlapping), whether or not malloc succeeds, and touch nothing else; encrypting and decrypting a buffer in place gives it back.", "quantifier": "all block sizes 1 to 16 that are powers of two, all ciphers, lengths, memory contents, placements of source and destination", "why_tests_cant": "in-place decryption works through a temporary of at most 512 bytes and an exclusive-or of overlapping ranges; every alignment, length and overlap would have to be tested", "anchors": ["src/crypt/cbc.c:42-119", "src/crypt/memxor.c:52-115"]}
{"id": "C79", "title": "CFB works on any placement of its buffers", "statement": "cry_cfb_encrypt reads exactly the message, writes exactly the standard CFB ciphertext to the destination and the last ciphertext block to the register, wherever source and destination lie in memory, and touches nothing else.", "quantifier": "all block sizes, ciphers, lengths, memory contents, placements of source and destination", "why_tests_cant": "reading past the end of the output buffer is invisible unless the buffer ends at the end of a page", "anchors": ["src/crypt/cfb.c:40-60"]}
{"id": "C80", "title": "CFB with feedback of bytes works on any placement of its buffers", "statement": "cry_cfb8_encrypt and cry_cfb8_decrypt read exactly the message, write exactly the standard CFB-8 output to the destination and the shift register to the context, in place or with the output before or behind the input, and touch nothing else; encrypting and decrypting in place gives the message back.", "quantifier": "all block sizes, ciphers, lengths, memory contents, placements with the output not inside the input still to be read", "why_tests_cant": "a sliding window over a local array of uninitialised bytes; which of them reach the context depends on the length", "anchors": ["src/crypt/cfb.c:62-108"]}
{"id": "C81", "title": "CTR works on any placement of its buffers", "statement": "cry_ctr_encrypt reads exactly the message, writes exactly the message combined with the standard counter-mode key stream to the destination and the counter advanced by the number of blocks to the context, wherever source and destination lie in memory, and touches nothing else; applying it twice in place from the same counter gives the message back.", "quantifier": "all counter sizes, ciphers, lengths, memory contents, placements of source and destination", "why_tests_cant": "the counters are first written to the destination, which may be part of the source; in place a local array of 64 bytes is used whose unwritten part depends on the counter size", "anchors": ["src/crypt/ctr.c:43-94"]}
{"id": "C82", "title": "Doubling and adding points in memory", "statement": "cry_ecp_dbl and cry_ecp_add leave the double or the sum, in standard form for operands in standard form, in the result object, which may be an operand; they touch no other object of the caller, leave no block allocated beyond those the result owns, and report failure if a number could not be allocated.", "quantifier": "all short Weierstrass curves over prime fields, all points on them, all digit widths, all choices of operand and result objects, all patterns of failing allocation requests", "why_tests_cant": "each call makes dozens of allocation requests, and the pattern of failures that corrupts the result depends on the course of the inversion", "anchors": ["src/ecp/ecp_dbl.c:6-52", "src/ecp/ecp_add.c:7-67", "include/cry/ecp.h:26-90"]}
{"id": "C83", "title": "Multiplying a point in memory", "statement": "cry_ecp_mul leaves the multiple of the point, in standard form, in the result object, which may be the operand, whenever it reports success; it touches no other object of the caller, gives back its window of eight points, and never goes outside the scalar.", "quantifier": "all short Weierstrass curves over prime fields, all points of odd order, all scalars of any number of digits, all digit widths, all patterns of failing allocation requests", "why_tests_cant": "whether the caller sees the previous contents of the result with status 0 depends on one particular allocation request failing", "anchors": ["src/ecp/ecp_mul.c:12-107"]}
{"id": "C84", "title": "Making, copying and clearing points and groups", "statement": "cry_ecp_init, cry_ecp_init_int, cry_ecp_init_list, cry_ecp_copy, cry_ecp_grp_init and the matching clear functions give the promised point or report failure, whichever allocation requests fail; after failure nothing made by the call is still allocated, after clear nothing at all, and no other object is touched.", "quantifier": "all coordinates of type long, all lists of points with no number in common, all patterns of failing allocation requests", "why_tests_cant": "the clean-up of a list depends on the position of the failing request", "anchors": ["src/ecp/ecp_core.c:3-62", "src/ecp/ecp_list.c:6-25", "src/misc.c:31-68", "include/cry/ecp.h:77-90"]}
{"id": "C85", "title": "Random numbers in memory", "statement": "cry_mpi_rand leaves a number of exactly the requested number of bits in the destination, cry_mpi_rand_range a number below the given one, made from the bytes of the generator, or they report that an allocation failed; nothing else of the caller is touched, the temporary buffer is given back, and no unwritten memory is read.", "quantifier": "all sizes, digit widths, generator outputs, previous contents of the destination, patterns of failing allocation requests", "why_tests_cant": "the outputs of the generator for which an unwritten digit is read are rare at large digit widths", "anchors": ["src/mpi/mpi_rand.c:8-47", "src/mpi/mpi_bin.c:6-43"]}
{"id": "C86", "title": "DSA in memory", "statement": "cry_dsa_sign leaves a signature that satisfies the signing equation in the two signature objects, cry_dsa_verify returns 0 exactly for signatures satisfying the verification equation; both give back everything they allocate, touch nothing else of the caller, and report failure if an allocation fails.", "quantifier": "all keys, messages, signatures, digit widths, generator outputs, patterns of failing allocation requests", "why_tests_cant": "whether a forged signature is accepted depends on a particular allocation request failing", "anchors": ["src/crypt/dsa.c:30-122"]}
{"id": "C87", "title": "ECDSA in memory", "statement": "cry_ecdsa_sign leaves a signature that satisfies the signing equation in the two signature objects, cry_ecdsa_verify returns 0 exactly for signatures satisfying the verification equation; both give back everything they allocate, touch nothing else of the caller, never behave in an undefined way, and report failure if an allocation fails.", "quantifier": "all prime-order subgroups of all curves in short Weierstrass form, keys, messages, signatures, digit widths, generator outputs, patterns of failing allocation requests", "why_tests_cant": "undefined behaviour shows only if one particular allocation request fails; the curves and keys are too many to sample", "anchors": ["src/crypt/ecdsa.c:7-93"]}
{"id": "C88", "title": "Contexts of ECDSA and ECDH, and built-in groups, in memory", "statement": "cry_ecdsa_init and cry_ecdh_init initialise the whole context or nothing, whichever allocation requests fail, and report which; clearing an initialised context gives back every block it owns and touches nothing else; loading a built-in group gives exactly the published domain parameters, an unknown number is refused, and no block is lost.", "quantifier": "all patterns of failing allocation requests, all placements of the context in memory, all group numbers, states of the heap before", "why_tests_cant": "a lost block or an object left uninitialised is visible only under particular failing requests, and then only later, when the context is cleared", "anchors": ["src/crypt/ecdsa.c:95-120", "src/crypt/ecdh.c:3-18", "src/ecp/ecp_curves.c:608-714"]}
{"id": "C89", "title": "Key generation and ECDH in memory", "statement": "cry_ecdsa_keygen leaves a private key below the order and the corresponding public key in the context; cry_ecdh_agree makes the public key and cry_ecdh_final the shared secret; two parties obtain the same coordinates; a key pair made this way on a built-in curve signs messages that verify. Nothing else is touched, no block is lost, and a failing allocation is reported.", "quantifier": "all curves with a base point of odd prime order, generator outputs, private keys, messages, placements in memory, patterns of failing allocation requests", "why_tests_cant": "the private key 0 needs one particular output of the generator; that a failing allocation is hidden shows only if a particular request fails", "anchors": ["src/crypt/ecdsa.c:122-129", "src/crypt/ecdh.c:20-28"]}
{"id": "C90", "title": "Diffie-Hellman in memory", "statement": "cry_dh_init initialises all numbers or none and reports which; cry_dh_agree and cry_dh_finalize compute the token and the secret or report that an allocation failed and leave the context alone; two parties who exchange tokens obtain the same bytes; cry_dh_clear gives everything back.", "quantifier": "all moduli above 1, bases, exponents, digit widths, buffers large enough for the modulus, patterns of failing allocation requests", "why_tests_cant": "agreement is a statement about all pairs of exponents; undefined behaviour shows only if the first request of a call fails", "anchors": ["src/crypt/dh.c:5-41"]}
{"id": "C91", "title": "ElGamal signatures in memory", "statement": "cry_elgamal_sign writes, and cry_elgamal_sign2 leaves, a signature made with the secret number of the generator, or returns -1 and writes nothing if the message is longer than the modulus or no secret number is coprime to p - 1; cry_elgamal_verify and verify2 accept exactly the signatures that satisfy the equation and change nothing; what one party signs another accepts; cry_elgamal_init initialises all numbers or none; cry_elgamal_clear gives everything back. No block is lost and a failing allocation is reported.", "quantifier": "all moduli, bases, keys, messages, generator outputs, buffers, placements in memory, patterns of failing allocation requests", "why_tests_cant": "the secret number 0 needs one particular output of the generator; undefined behaviour shows only if a particular request fails", "anchors": ["src/crypt/elgamal.c:33-174"]}
{"id": "C92", "title": "GCM with its buffers in memory", "statement": "A session of cry_gcm_key_set, cry_gcm_iv_set, cry_gcm_update, cry_gcm_encrypt or cry_gcm_decrypt and cry_gcm_digest on buffers in one memory writes the ciphertext or message and the tag (up to 16 bytes) of SP 800-38D, for lengths below 2^29 bytes, exactly when the output is on the input, at least a block before it, or behind it, or there is no whole block; for every other placement the output can be wrong. Whatever the placement, no byte outside the context, the output, the tag and the local arrays changes.", "quantifier": "all ciphers on 16-byte blocks, all memories, buffers, lengths and placements", "why_tests_cant": "the placements that lose the message differ from the good ones by one address", "anchors": ["src/crypt/gcm.c:10-203"]}
{"id": "C93", "title": "Stream and classical ciphers with their buffers in memory", "statement": "cry_arc4_crypt, cry_trivium_crypt and cry_affine_encrypt/decrypt on buffers in one memory write the ciphertext of the standard and nothing else when the output is on the input, before it, or behind its end; with the output starting inside the input the result of encryption can be wrong for every key (Trivium: unless the message has exactly 4 bytes). cry_hill_encrypt and cry_hill_decrypt write the length rounded up to whole blocks: the bytes behind the output are overwritten, and the call is undefined when they are not there.", "quantifier": "all keys, all memories, buffers, lengths and placements", "why_tests_cant": "the placements that lose the message differ from the good ones by one address, and bytes behind a buffer are not compared", "anchors": ["src/crypt/arc4.c:41-63", "src/crypt/trivium.c:133-170", "src/crypt/affine.c:10-31", "src/crypt/hill.c:91-153"]}
{"id": "C94", "title": "Base64 with its buffers in memory", "statement": "cry_base64_encode of n > 0 bytes writes the standard encoding and nothing else exactly when the output starts at least ceil(n/3) bytes before the input or behind its end; in place it is wrong. cry_base64_decode of the encoding of a message writes the message and nothing else exactly when the output does not start inside the text; in place it is right, and an output buffer of the length of the message is enough. A text with a character outside of the alphabet is rejected and at most the groups before it are written. Length 0 is undefined.", "quantifier": "all messages, texts, memories, lengths and placements", "why_tests_cant": "the placements that lose the message differ from the good ones by one address, and reads of already overwritten characters depend on the order of the accesses", "anchors": ["src/crypt/base64.c:6-96"]}
{"id": "C95", "title": "AES key wrap with input, output and key in memory", "statement": "With an output apart from input and key, cry_aes_wrap returns 0 and writes exactly its len+8 output bytes, for up to 42 whole blocks the RFC 3394 wrapping under FIPS 197 AES. cry_aes_unwrap of at least one block into a place apart from the input after its first 8 bytes and from the key accepts exactly the wrappings, writes the data, and otherwise writes zeros and returns -1; what was wrapped is recovered. Wrapping is defined exactly if the input is apart from the output after its first 8 bytes (so not for data already at out+8), unwrapping exactly for at least one block and an output apart from the input after its first 8 bytes (so in place for one block only). An input reaching into the first 8 output bytes or a key overlapping the output is overwritten before it is read, and the result does not depend on it.", "quantifier": "all memories, lengths, keys and placements", "why_tests_cant": "overlapping memcpy usually appears to work; the lost input or key gives a plausible looking wrapping that nobody can open", "anchors": ["src/utils/aes_wrap.c:20-90", "src/crypt/aes.c:376-409"]}
{"id": "C96", "title": "Primality test and prime generation in memory", "statement": "cry_mpi_is_prime returns 1 exactly if the number is an odd prime below 1010, or has no such divisor and passes the Miller-Rabin test with the five bases drawn; otherwise 0. It leaves every number of the caller as it was and gives back all memory. Every odd prime is accepted when no base drawn is 0, and rejected (above 1010) when one is. On the number 1 it never returns. cry_mpi_prime leaves in p the first number drawn, with its two highest bits and its lowest bit set, that the test accepts, reports 0 and the number of turns; when none is accepted before the last turn allowed it reports -1. It touches no other number.", "quantifier": "all numbers, digit widths, bytes drawn without leading zero digit, lengths and turn limits; memory states without failing allocation", "why_tests_cant": "the answer depends on five random bases and on a table of 168 divisors; leaks and the behaviour on failing allocations are not visible in the result", "anchors": ["src/mpi/mpi_prime.c:66-268"]}
{"id": "C97", "title": "RSA in memory, whichever allocations fail", "statement": "cry_rsa_encrypt and cry_rsa_sign return one newly allocated block with the message cut into PKCS#1 v1.5 blocks, each raised to the exponent, or -1 with no block and nothing leaked; cry_rsa_decrypt of a block returns the message exactly if the power has the PKCS#1 form; cry_rsa_verify accepts exactly if the power is the PKCS#1 block of the message. The context is not changed. What one memory encrypts or signs another decrypts or accepts, and without padding exactly the messages below the modulus come back. cry_rsa_init and cry_rsa_clear own and give back all numbers.", "quantifier": "all keys, digit widths, messages (any number of blocks for encryption), padding bytes, initial states and patterns of failing allocations", "why_tests_cant": "leaks and damage on an allocation that fails at any point of a modular power cannot be enumerated; ownership is not visible in results", "anchors": ["src/crypt/rsa.c:92-297", "src/crypt/rsa.c:355-368"]}
{"id": "C98", "title": "The other build options compute the same", "statement": "Whatever options the library is built with, the functions they exchange have the same results: cry_mpi_div_abs with CRY_MPI_DIV_SMALL leaves the same quotient and remainder and fails for the same operands; cry_mpi_inv without CRY_MPI_INV_EUCLID leaves the same inverse when the number is coprime to the modulus and fails otherwise; cry_ecp_mul without window options computes the same multiple of the point; cry_mpi_mul and cry_mpi_sqr leave the exact product for each choice of Toom-3, Karatsuba and Comba.", "quantifier": "all operands of any length and sign, all digit widths, all points and curves", "why_tests_cant": "tests run in one configuration; agreement of two algorithms on all operands is a statement about both", "anchors": ["src/mpi/mpi_div_abs.c:6-62", "src/mpi/mpi_inv.c:58-119", "src/ecp/ecp_mul.c:203-227", "src/mpi/mpi_mul_abs.c:8-25", "src/mpi/mpi_sqr.c:7-19"]}
{"id": "C99", "title": "Memory safety of inverses, point arithmetic, ECDSA and ECDH when memory runs out", "statement": "Whichever allocations fail, cry_mpi_inv, cry_ecp_dbl, cry_ecp_add, cry_ecp_mul, cry_ecdh_agree, cry_ecdh_final, cry_ecdsa_keygen, cry_ecdsa_sign and cry_ecdsa_verify have no undefined behaviour: if they return, the status is 0 or -1, every object of the caller that is not a result is untouched, the results are initialised numbers that can be read, written and cleared, and every block allocated on the way is released exactly once.", "quantifier": "all initialised numbers and points (also those not on the curve), all digit widths, all patterns of failing allocations", "why_tests_cant": "the pattern of failing allocations ranges over all sets of requests, of which there are hundreds in one multiplication; a test can only inject a few", "anchors": ["src/mpi/mpi_inv.c:11-49", "src/ecp/ecp_dbl.c", "src/ecp/ecp_add.c", "src/ecp/ecp_mul.c:14-108", "src/crypt/ecdsa.c:3-129", "src/crypt/ecdh.c:20-28"]}
{"id": "C100", "title": "RSA key generation in memory", "statement": "When cry_rsa_keygen returns 0 the context holds a key: two different numbers accepted as primes, their product of exactly the size asked for, a public exponent coprime to (p-1)(q-1), and the private exponent; otherwise -1 is returned. In either case the members stay initialised numbers, no other object is written, and all memory of the call is given back.", "quantifier": "all sizes, all exponents, all outputs of the generator, all contexts, all digit widths", "why_tests_cant": "the outcome depends on thousands of candidates drawn in up to 10000 turns; a test sees one key and cannot see an exponent that is silently missing, nor the success reported after the last fruitless turn", "anchors": ["src/crypt/rsa.c:300-353", "src/mpi/mpi_prime.c:194-268"]}
{"id": "C101", "title": "DSA key generation in memory", "statement": "When cry_dsa_keygen returns 0 the context holds a key: q of 160 bits and p of the size asked for, both accepted as primes, with q dividing p-1, an element g above 1 whose order divides q, a private key between 1 and q-1 and the public key g^x mod p; otherwise -1 is returned and the private and public key are those of before. In either case the members stay initialised numbers, no other object is written, and all memory of the call is given back. Signatures made with the key are accepted.", "quantifier": "all sizes, all outputs of the generator, all contexts, all messages, all digit widths", "why_tests_cant": "three nested searches with up to 1024 * 4096 candidates; a test sees one key, and a private key drawn from the wrong range looks like any other", "anchors": ["src/crypt/dsa.c:137-195", "src/mpi/mpi_prime.c:194-268"]}
{"id": "C102", "title": "AES and DES with their buffers in memory", "statement": "cry_aes_encrypt, cry_aes_decrypt, cry_des_encrypt and cry_des_decrypt on buffers in one memory write, for every whole block of the source, the block of the standard cipher to the destination and nothing else, exactly when there is at most one block or the destination does not start inside the source; with the destination inside the source the result is wrong for some memory under every key. AES ignores a last block that is not whole; DES with a size that is not a multiple of 8 never returns and leaves the memory. Encrypting and decrypting in place gives the memory back.", "quantifier": "all keys, all memories, all placements of the buffers, all lengths", "why_tests_cant": "all relative placements of two buffers times all contents; tests use separate buffers and a few blocks", "anchors": ["src/crypt/aes.c:411-509", "src/crypt/des.c:148-158", "src/crypt/des.c:212-333"]}
{"id": "C103", "title": "Hash functions and HMAC with their buffers in memory", "statement": "The hash functions on buffers in one memory, with any split of the message into update calls: if the message lies outside of the data array of the context, no access is undefined, the digest written is that of the standard (for SHA-512 and SHA-384 the one determined in C38), also when it is written over the message, the array of the context ends cleared, and no byte changes but the digest, the context and the local arrays. If any byte of the message may not be read, the update is undefined. The same holds for HMAC with SHA-256, SHA-1 and MD5, keys of any length, the code possibly over the messages or the caller's key. With a key longer than a block, cry_hmac_init with a hash_len above 64 runs over its arrays.", "quantifier": "all memories, all placements of the buffers, all contents, lengths below 4 GiB per call (SHA-256: all lengths), all splits of the message", "why_tests_cant": "all relative placements of buffers times all contents and splits; tests use separate buffers and a few messages", "anchors": ["src/hash/md5.c:145-233", "src/hash/sha1.c:154-234", "src/hash/sha256.c:78-153", "src/hash/sha512.c:128-229", "src/crypt/hmac.c:6-63"]}
{"id": "C104", "title": "CMAC with its buffers in memory", "statement": "CMAC over buffers in one memory, with any 16-byte block cipher and any split of the message into update calls: if the message lies outside of the context and of the local array of cry_cmac_update, no access is undefined, the tag written is that of RFC 4493, also when it is written over the message, and no byte changes but the tag, the context and the local arrays. If any byte of the message may not be read, the update is undefined.", "quantifier": "all block ciphers, all memories, all placements of the buffers, all contents, all lengths, all splits of the message", "why_tests_cant": "all relative placements of buffers times all contents and splits; tests use separate buffers and the vectors of the RFC", "anchors": ["src/crypt/cmac.c:6-121"]}
{"id": "C105", "title": "The AES generator with its buffers in memory", "statement": "cry_prng_aes_init on a seed of any size, or on a null pointer, and then any sequence of cry_prng_aes_rand requests of any sizes into buffers of one memory: if the seed and the buffers lie outside of the static context of the generator and the buffers apart from each other, no access is undefined, the buffers hold consecutive parts of the AES counter mode stream of the seed, also when a buffer lies over the seed, and no byte changes but the buffers, the context and the local key.", "quantifier": "all memories, all placements of seed and buffers, all seeds and seed sizes, all sequences of request sizes", "why_tests_cant": "all relative placements of buffers times all seeds and all splits into requests; tests make a few requests into one array", "anchors": ["src/prng/prng_aes.c:18-76"]}
{"id": "C106", "title": "CRC and LFSR113 with their buffers in memory", "statement": "The four CRCs over any buffers of one memory, in any number of updates: no access is undefined, every table index is inside of its table, and only the digest is written, also over the message, with the remainder of the documented polynomial, complemented and with bytes exchanged where the algorithm says so. LFSR113 writes to the buffer of each request, and nowhere else, the words that follow, high byte first and cut at the end; seeding reads the seed and is undefined for more than 16 bytes. An update or a seeding is undefined if one of the bytes it is given may not be read.", "quantifier": "all memories, all placements and lengths of the buffers, all contents, all splits into updates, all states and sequences of request sizes", "why_tests_cant": "all placements times all contents and splits; tests use a few fixed buffers", "anchors": ["src/crc/crc16.c:11-34", "src/crc/crc32.c:11-39", "src/prng/prng_lfsr113.c:35-79"]}
{"id": "C107", "title": "What counts of a DES key", "statement": "cry_des_encrypt and cry_des_decrypt give the same result for keys that differ only in parity bits; triple DES with the first two or the last two keys equal is DES with the remaining one; a key shorter than 24 bytes is its first eight bytes, filled up with zeros, and a longer one its first 24; the weak keys and the pairs of semi-weak keys are accepted and undo each other.", "quantifier": "all keys of all lengths, all messages of whole blocks (for the parity bits all messages)", "why_tests_cant": "2^56 keys with 2^8 choices of parity bits each, times all messages", "anchors": ["src/crypt/des.c:212-343", "include/cry/des.h:16-19"]}
{"id": "C108", "title": "Equal digests mean a collision of the compression function", "statement": "If two different messages of less than 2^61 bytes, given in any updates, have the same digest, then the compression function of the standard maps two different pairs of chaining value and block to the same value: the padding and the length leave no other collisions. Claimed for cry_sha256, cry_sha1, cry_md5 and cry_sha512.", "quantifier": "all pairs of messages below 2^61 bytes and all ways of splitting them into updates", "why_tests_cant": "a test compares finitely many digests; the claim is about all pairs of messages", "anchors": ["src/hash/sha256.c", "src/hash/sha1.c", "src/hash/md5.c", "src/hash/sha512.c:197-229", "src/crypt/hmac.c:6-63"]}
{"id": "C109", "title": "Errors in a ciphertext spread only as far as the mode promises", "statement": "A changed block of a CBC ciphertext changes that block of the plaintext and the same bits of the next one, nothing else. CFB8 recovers from lost, added or changed bytes: after as many intact bytes as the register has, everything that follows is decrypted rightly, whatever was received before and whatever the register was. In CTR, GCM, ARC4 and Trivium exactly the changed bits are changed. A changed block of a CFB ciphertext changes the same bits of that block and the next block, nothing else.", "quantifier": "all ciphers, keys, ciphertexts and errors; all positions of the changed block; all amounts of lost or added bytes", "why_tests_cant": "a test tries single errors in single messages; the claim is about every error in every ciphertext and every cipher", "anchors": ["src/crypt/cbc.c:62-114", "src/crypt/cfb.c:40-110", "src/crypt/ctr.c", "src/crypt/gcm.c", "src/crypt/arc4.c", "src/crypt/trivium.c"]}
{"id": "C110", "title": "HMAC with SHA-512 and SHA-384 is that of RFC 2104", "statement": "For every key and message, in any updates, cry_hmac with the interfaces of SHA-512 and SHA-384 gives H((K^opad)||H((K^ipad)||m)) with the block of 128 bytes of these hash functions, keys longer than the block being hashed first.", "quantifier": "all keys, messages below 4 GiB and splits, both hash functions", "why_tests_cant": "all key lengths and splits; the tests of the library use SHA-256 only", "anchors": ["src/crypt/hmac.c:6-63", "include/cry/hmac.h:11", "src/hash/sha512.c:197-229"]}
{"id": "C111", "title": "A peer's value is checked before it is used", "statement": "cry_dh_finalize fails when the number set with cry_dh_set_tok is not between 2 and p-2, and cry_ecdh_final when the peer's point is infinity or not on the curve of the group object.", "quantifier": "all groups, secrets and received values", "why_tests_cant": "all values a hostile peer may send; tests exchange values of honest peers", "anchors": ["src/crypt/dh.c:23-36", "src/crypt/ecdh.c:25-28"]}
{"id": "C112", "title": "GCM tags of different messages are unrelated", "statement": "For two different pairs of associated data and ciphertext under the same nonce of 12 bytes, and any difference of tags, cry_gcm_digest gives tags with this difference under at most n of the 2^128 hash keys, n being the blocks hashed (the bound on forgeries of the standard).", "quantifier": "all pairs of messages, all nonces, all ciphers, all differences, all hash keys", "why_tests_cant": "a statement on how many of 2^128 keys are bad, for all pairs of messages", "anchors": ["src/crypt/gcm.c:10-74", "src/crypt/gcm.c:117-136", "src/crypt/gcm.c:178-203"]}
{"id": "C113", "title": "LFSR113 has its full period", "statement": "After cry_prng_lfsr113_init the words written by cry_prng_lfsr113_rand repeat after (2^31-1)(2^29-1)(2^28-1)(2^25-1) words, and with no smaller period.", "quantifier": "all seeds, all states before, all distances", "why_tests_cant": "the period is about 2^113 words: no run can reach it", "anchors": ["src/prng/prng_lfsr113.c:20-33", "src/prng/prng_lfsr113.c:35-79"]}
{"id": "C114", "title": "The streams of the AES generator", "statement": "After cry_prng_aes_init with any seed the 16-byte blocks of the output of cry_prng_aes_rand are all different up to block 2^128 and repeat from there, however the requests are cut. Seeds with the same first 16 bytes enter the same cycle of blocks at different places. Bytes of the seed after the 32nd and zeros at its end have no effect.", "quantifier": "all seeds, all pairs of blocks, all sequences of request sizes", "why_tests_cant": "a cycle of 2^128 blocks cannot be run through, and all pairs of seeds cannot be compared", "anchors": ["src/prng/prng_aes.c:18-46", "src/prng/prng_aes.c:48-76"]}
{"id": "C115", "title": "CRCs notice errors in two bits and in an odd number of bits", "statement": "If exactly two bits of a message of any length are changed, the value of the CRC stays the same exactly when the two are a multiple of N bits apart, N being 32767 for cry_crc16_ccitt and cry_crc16_ibm, 151 for cry_crc16_dnp and 2^32-1 for cry_crc32_eth. The three CRCs of 16 bits change whenever an odd number of bits is changed.", "quantifier": "all messages, all pairs of bits, all sets of changed bits of odd size", "why_tests_cant": "all messages and all positions; pairs 2^32-1 bits apart need messages of 512 MiB", "anchors": ["src/crc/crc16.c:6-34", "src/crc/crc32.c:6-39", "src/crc/crc16_ccitt.c:5-57", "src/crc/crc16_ibm.c:5-56", "src/crc/crc16_dnp.c:5-57", "src/crc/crc32_eth.c:5-82"]}
{"id": "C116", "title": "ARC4 keys and states", "statement": "After cry_arc4_key_set only the first 256 bytes of the key, repeated as needed, count: a key written twice gives the same context, bytes after the 256th have no effect, and even keys of 256 bytes can differ and give the same context. Two contexts that differ never become equal by encrypting the same number of bytes, every context comes back to itself after some number of bytes, and no key and no amount of data leads to a context with y = x + 1 and 1 at y (the states of the short cycles).", "quantifier": "all keys, all contexts with a table of 256 bytes, all messages", "why_tests_cant": "all keys and unbounded amounts of data; a missed state is not seen by any finite run", "anchors": ["src/crypt/arc4.c:16-39", "src/crypt/arc4.c:41-63"]}
{"id": "C117", "title": "The digest of a CRC taken again, and its flags", "statement": "cry_crc16_digest and cry_crc32_digest change the context: a second digest gives the register itself, neither complemented nor exchanged, and brings the context back to what it was before the first; for cry_crc32_eth the second value is the complement of the first. CRY_CRC_FLAG_SWAP reverses the bytes of the digest and CRY_CRC_FLAG_COMPLEMENT complements each of them, for every table and start value.", "quantifier": "all contexts, tables, registers and flags, all messages, all positions of the two outputs", "why_tests_cant": "all 2^32 registers with all tables; 32-bit SWAP is used by no built-in CRC, so no vector reaches it", "anchors": ["src/crc/crc16.c:18-34", "src/crc/crc32.c:18-39"]}
{"id": "C118", "title": "Trivium keys, initial values and states", "statement": "Keys and initial values count with their first ten bytes, filled up with zeros: those which agree give the same outputs, those which do not give states which are different and stay so however much is encrypted. Every key stream is periodic from its first byte on. No key, initial value and amount of data leads to the state of zeros, where the cipher would stay. Before the first cry_trivium_iv_set the state is that one, so that the output is the plaintext whatever the key; a key set later counts from the next initial value on.", "quantifier": "all contexts, keys and initial values of any length, all sequences of messages", "why_tests_cant": "2^160 keys and initial values, unbounded amounts of data", "anchors": ["src/crypt/trivium.c:35-60", "src/crypt/trivium.c:63-66", "src/crypt/trivium.c:73-132", "src/crypt/trivium.c:135-170"]}
{"id": "C119", "title": "HMAC keys and equal tags", "statement": "With each hash function of the library: zero bytes behind an HMAC key, up to 64 bytes in all, do not change any tag; a key longer than 64 bytes and its hash give the same tags; the tag depends on the message and not on its parts. If two tags are equal, then the keys as used (64 bytes) and the messages are equal, or the two inner or the two outer inputs are different inputs of the hash function with the same hash.", "quantifier": "all keys, all sequences of updates, all hash functions of the library (below 2^32 bytes, SHA-256 without a limit)", "why_tests_cant": "all pairs of keys and messages; equal tags cannot be searched for", "anchors": ["src/crypt/hmac.c:6-36", "src/crypt/hmac.c:38-63"]}
