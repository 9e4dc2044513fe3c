# Axioms per theorem

Output of `#print axioms` for every theorem named in `MANIFEST.json`, grouped.

## none (1 theorems)

* `Verif.Mem.mem_grow_static`

## propext (15 theorems)

* `Verif.Mpi.shr_negative_zero`
* `Verif.Mpi.gcd_negative_wrong`
* `Verif.Arc4.arc4_keys_collide`
* `Verif.Mpi.setInt_min_ub`
* `Verif.Mpi.getInt_min_ub`
* `Verif.Mpi.rand_out_of_bounds`
* `Verif.Modes.incBE_one_byte_ub`
* `Verif.Arc4.arc4_empty_key`
* `Verif.LongInv.longInv_zero`
* `Verif.Mem.mem_add_fresh`
* `Verif.Mem.mem_shr_negzero`
* `Verif.Mem.mem_sqr_negative`
* `Verif.Mem.mem_gcd_zero`
* `Verif.Mpi.div_small_negative_wrong`
* `Verif.Mpi.sqr_options_sign_wrong`

## propext, Quot.sound (92 theorems)

* `Verif.Mpi.modExp_zero_one_wrong`
* `Verif.Mpi.modExp_rejects`
* `Verif.RamHash.ram_hash_reads`
* `Verif.RamHash.ram_hmac_long`
* `Verif.Des.des_short_key`
* `Verif.Des.des_long_key`
* `Verif.Arc4.arc4_error`
* `Verif.Crc.eth_odd_missed`
* `Verif.Arc4.arc4_key_same`
* `Verif.Arc4.arc4_key_twice`
* `Verif.Arc4.arc4_key_long`
* `Verif.Arc4.arc4_no_merge`
* `Verif.Arc4.arc4_finney`
* `Verif.Mpi.sqrt_rejects`
* `Verif.Mpi.storeStr_radix`
* `Verif.Mpi.loadStr_rejects_partial`
* `Verif.Mpi.loadStr_accepts_junk`
* `Verif.Mpi.loadStr_junk_unnormalised`
* `Verif.Mpi.loadStr_hex_never_rejects`
* `Verif.MemXor.memxor_correct`
* `Verif.MemXor.memxor2_alloc_failure`
* `Verif.Modes.cfb_no_iv_hangs`
* `Verif.Modes.cfb8Encrypt_correct`
* `Verif.Modes.cfb8Encrypt_split`
* `Verif.Modes.gcm_sizes_truncated`
* `Verif.Modes.hmac_correct`
* `Verif.Modes.unwrap_short_ub`
* `Verif.Modes.wrap_nonstandard`
* `Verif.Aes.fips_inverse`
* `Verif.Aes.keySet_short`
* `Verif.Des.des_blocks`
* `Verif.Des.des_undefined`
* `Verif.Hash.Sha1.sha1_long_update`
* `Verif.Hash.Md5.md5_long_update`
* `Verif.Crc.update_split`
* `Verif.Crc.burst_byte`
* `Verif.Base64.decode_rejects_length`
* `Verif.Base64.base64_empty_ub`
* `Verif.Base64.decode_accepts_bad_padding`
* `Verif.Arc4.arc4_standard`
* `Verif.Arc4.arc4_self_inverse`
* `Verif.Arc4.arc4_split`
* `Verif.Arc4.arc4_permutation`
* `Verif.Trivium.trivium_parallel`
* `Verif.Trivium.trivium_split_wrong`
* `Verif.Affine.affine_empty_key`
* `Verif.Hill.keylenTrim_eq`
* `Verif.Hill.hill_tail_oob`
* `Verif.Hill.hill_wrong_ikey`
* `Verif.Lfsr.lfsr_short_seed`
* `Verif.Lfsr.lfsr_long_seed`
* `Verif.Dsa.dsa_zero_r`
* `Verif.Ecdsa.ecdsa_x_ge_n`
* `Verif.Ecdsa.ecdsa_k_zero`
* `Verif.Ecdsa.ecdsa_large_s`
* `Verif.Ecdsa.ecdsa_keygen_zero`
* `Verif.Rsa.rsa_empty_ub`
* `Verif.Rsa.rsa_small_ub`
* `Verif.Rsa.padding_add_pkcs`
* `Verif.Rsa.padding_roundtrip`
* `Verif.Rsa.padding_del_iff`
* `Verif.Rsa.padding_del_rejects`
* `Verif.Rsa.rsa_none_prefix`
* `Verif.Ecp.ecp_mul_sign`
* `Verif.RsaGen.rsa_keygen_no_private`
* `Verif.RsaGen.rsa_keygen_exhausted_equal`
* `Verif.RsaGen.rsa_keygen_exhausted_even`
* `Verif.RsaGen.rsa_keygen_exhausted_odd`
* `Verif.Mem.mem_clear`
* `Verif.Mem.mem_div_failure_lost`
* `Verif.Mem.mem_mod_alias_wrong`
* `Verif.Mem.mem_div_null_remainder`
* `Verif.Mem.mem_modExp_negative`
* `Verif.Mem.mem_modExp_first_failure`
* `Verif.Mem.mem_modExp_first_failure_zero`
* `Verif.Mem.mem_lcm_negative`
* `Verif.Mem.mem_inv_failure_lost`
* `Verif.Mem.mem_inv_alias_wrong`
* `Verif.Mem.mem_sqrt_negative`
* `Verif.Mem.mem_storeStr_radix`
* `Verif.Mem.mem_loadStr_radix`
* `Verif.Mem.mem_ecp_add_inverse_failure`
* `Verif.Mem.mem_rand_zeros`
* `Verif.Mem.mem_rand_negative`
* `Verif.Mem.mem_dh_agree_ub`
* `Verif.Mem.mem_elgamal_sign_zero`
* `Verif.Mem.mem_elgamal_verify2_ub`
* `Verif.Ram.gcm_long_tag_ram`
* `Verif.Ram.b64_empty_ram`
* `Verif.Mem.mem_is_prime_ub`
* `Verif.Mem.mem_rsa_encrypt_ub`
* `Verif.Mpi.inv_bin_both_even_wrong`

## propext, Classical.choice, Quot.sound (534 theorems)

* `Verif.Mpi.add_correct`
* `Verif.Mpi.sub_correct`
* `Verif.Mpi.cmp_correct`
* `Verif.Mpi.cmpAbs_correct`
* `Verif.Mpi.cmp_zero_iff_eq`
* `Verif.Mpi.mul_correct`
* `Verif.Mpi.mul_routines_agree`
* `Verif.Mpi.mulDig_correct`
* `Verif.Mpi.sqr_correct_partial`
* `Verif.Mpi.sqr_magnitude`
* `Verif.Mpi.sqr_negative_wrong`
* `Verif.Mpi.sqrBaseline_correct`
* `Verif.Mpi.divAbs_zero`
* `Verif.Mpi.divAbs_correct_partial`
* `Verif.Mpi.divAbs_negative_wrong`
* `Verif.Mpi.div_zero`
* `Verif.Mpi.div_correct_iff_partial`
* `Verif.Mpi.div_nonneg_partial`
* `Verif.Mpi.div_null_remainder_ub`
* `Verif.Mpi.mod_correct`
* `Verif.Mpi.mod_zero`
* `Verif.Mpi.shl_correct`
* `Verif.Mpi.shr_correct`
* `Verif.Mpi.shr_wf`
* `Verif.Mpi.shld_in_place`
* `Verif.Mpi.shrd_in_place`
* `Verif.Mpi.modExp_correct_partial`
* `Verif.Mpi.exp_correct`
* `Verif.Mpi.inv_correct`
* `Verif.Mem.mem_rsa_keygen_partial`
* `Verif.Mem.mem_rsa_pair_size`
* `Verif.Mem.mem_rsa_keygen_odd`
* `Verif.Mem.mem_rsa_keygen_size`
* `Verif.Mem.mem_rsa_keygen_nomem`
* `Verif.Mem.mem_dsa_keygen_partial`
* `Verif.Mem.mem_dsa_found`
* `Verif.Mem.mem_dsa_life`
* `Verif.Mem.mem_dsa_keygen_private`
* `Verif.Mem.mem_dsa_keygen_ub`
* `Verif.Ram.ram_aes_cipher`
* `Verif.Ram.ram_aes_encrypt`
* `Verif.Ram.ram_aes_decrypt`
* `Verif.Ram.ram_aes_overlap_wrong`
* `Verif.Ram.ram_aes_roundtrip`
* `Verif.Ram.ram_des_cipher`
* `Verif.Ram.ram_des_blocks`
* `Verif.Ram.ram_des_roundtrip`
* `Verif.Ram.ram_des_overlap_wrong`
* `Verif.Ram.ram_des_runs_over`
* `Verif.RamHash.ram_sha256`
* `Verif.RamHash.ram_sha1`
* `Verif.RamHash.ram_md5`
* `Verif.RamHash.ram_sha512`
* `Verif.RamHash.ram_hmac`
* `Verif.RamHash.ram_hmac_sha256`
* `Verif.RamHash.ram_hmac_sha1`
* `Verif.RamHash.ram_hmac_md5`
* `Verif.RamCmac.ram_cmac`
* `Verif.RamCmac.ram_aes_cmac`
* `Verif.RamCmac.ram_cmac_reads`
* `Verif.RamPrng.ram_prng`
* `Verif.RamCrc.ram_crc`
* `Verif.RamCrc.ram_crc_reads`
* `Verif.RamCrc.ram_lfsr`
* `Verif.RamCrc.ram_lfsr_init`
* `Verif.Des.des_parity`
* `Verif.Des.des_triple_single`
* `Verif.Des.des_weak`
* `Verif.Hash.sha256_collides`
* `Verif.Hash.sha1_collides`
* `Verif.Hash.md5_collides`
* `Verif.Hash.sha512_collides_partial`
* `Verif.Hash.sha512_collision`
* `Verif.Hash.hmac_sha512_forgery`
* `Verif.Modes.cbc_error`
* `Verif.Modes.cfb8_resync`
* `Verif.Modes.ctr_error`
* `Verif.Modes.ctr_error_in`
* `Verif.Modes.gcm_error`
* `Verif.Modes.cfb_error_spreads`
* `Verif.Trivium.trivium_error`
* `Verif.Mpi.gcd_correct_partial`
* `Verif.Mpi.gcd_magnitude_partial`
* `Verif.Mpi.gcd_zero_wrong`
* `Verif.Hash.hmac_sha512_partial`
* `Verif.Hash.hmac_sha512_wrong`
* `Verif.Dh.dh_weak_peer`
* `Verif.Ecdh.ecdh_infinity`
* `Verif.Ecdh.ecdh_off_curve`
* `Verif.Ecdh.ecdh_off_curve_any`
* `Verif.Modes.gcm_forgery_partial`
* `Verif.Modes.gcm_forgery_short_partial`
* `Verif.Modes.gcm_zeros`
* `Verif.Lfsr.lfsr_stream_period_partial`
* `Verif.Lfsr.lfsr_stream_unseeded`
* `Verif.Lfsr.lfsr_stream_live`
* `Verif.Lfsr.lfsr_stream_stuck`
* `Verif.Lfsr.lfsr_period`
* `Verif.Lfsr.lfsr_rand`
* `Verif.Lfsr.lfsr_requests`
* `Verif.PrngAes.prngAes_blocks`
* `Verif.PrngAes.prngAes_shift`
* `Verif.PrngAes.prngAes_seed`
* `Verif.Crc.ccitt_two`
* `Verif.Crc.ibm_two`
* `Verif.Crc.dnp_two`
* `Verif.Crc.eth_two`
* `Verif.Crc.crc16_odd`
* `Verif.Arc4.arc4_periodic`
* `Verif.RamCrc.ram_crc16_again`
* `Verif.RamCrc.ram_crc32_again`
* `Verif.RamCrc.crc_eth_again`
* `Verif.RamCrc.crc_swap`
* `Verif.RamCrc.crc_compl`
* `Verif.Trivium.trivium_same`
* `Verif.Trivium.trivium_no_merge`
* `Verif.Trivium.trivium_periodic`
* `Verif.Trivium.trivium_never_zero`
* `Verif.Trivium.trivium_zero_state`
* `Verif.Trivium.trivium_no_iv`
* `Verif.Trivium.trivium_key_late`
* `Verif.Hash.hmac_keys_sha256`
* `Verif.Hash.hmac_keys_sha1`
* `Verif.Hash.hmac_keys_md5`
* `Verif.Hash.hmac_keys_sha512`
* `Verif.Mpi.lcm_correct_partial`
* `Verif.Mpi.lcm_zero_error`
* `Verif.Mpi.lcm_sign_ub`
* `Verif.Mpi.sqrt_correct`
* `Verif.Mpi.storeBin_too_small`
* `Verif.Mpi.storeBin_correct`
* `Verif.Mpi.loadBin_correct_partial`
* `Verif.Mpi.loadBin_stale_sign`
* `Verif.Mpi.store_load_bin`
* `Verif.Mpi.loadStr_correct`
* `Verif.Mpi.storeStr_correct`
* `Verif.Mpi.store_load_str`
* `Verif.Mpi.setInt_correct_partial`
* `Verif.Mpi.getInt_correct_partial`
* `Verif.Mpi.getInt_wrong`
* `Verif.Mpi.set_get_int`
* `Verif.Mpi.rand_correct_partial`
* `Verif.Mpi.rand_too_short`
* `Verif.Mpi.rand_stale_sign`
* `Verif.Mpi.randRange_correct_partial`
* `Verif.Mpi.rand_no_ub`
* `Verif.Mpi.randRange_zero`
* `Verif.Mpi.smallPrimes_eq`
* `Verif.Mpi.isPrime_small`
* `Verif.Mpi.isPrime_small_factor`
* `Verif.Mpi.isPrime_prime_partial`
* `Verif.Mpi.isPrime_rejects_prime`
* `Verif.Mpi.isPrime_terminates_partial`
* `Verif.Mpi.isPrime_one_hangs`
* `Verif.Mpi.countBits_correct`
* `Verif.Mpi.countBytes_correct`
* `Verif.Mpi.isZero_correct`
* `Verif.Mpi.isOdd_correct`
* `Verif.Mpi.isEven_correct`
* `Verif.ListInit.mpiInitList_all_or_nothing`
* `Verif.ListInit.ecpInitList_all_or_nothing`
* `Verif.ListInit.mpiInitList_success_iff`
* `Verif.MemXor.memxor2_correct_partial`
* `Verif.MemXor.memxor2_wrong_on_bad_overlap`
* `Verif.Modes.memxor2_placement`
* `Verif.Modes.cbc_roundtrip_partial`
* `Verif.Modes.cbc_standard`
* `Verif.Modes.cbcEncrypt_split`
* `Verif.Modes.cbcDecrypt_split`
* `Verif.Modes.cbc_empty_ub`
* `Verif.Modes.cfbCrypt_standard`
* `Verif.Modes.cfb_roundtrip_partial`
* `Verif.Modes.cfb_decrypt_wrong`
* `Verif.Modes.cfb_partial_ub`
* `Verif.Modes.cfb8Decrypt_correct_partial`
* `Verif.Modes.cfb8_roundtrip`
* `Verif.Modes.cfb8Decrypt_split_partial`
* `Verif.Modes.cfb8Decrypt_short`
* `Verif.Modes.cfb8Decrypt_short_wrong`
* `Verif.Modes.incBE_value`
* `Verif.Modes.ctrOut_standard`
* `Verif.Modes.ctrIn_standard_partial`
* `Verif.Modes.ctrIn_short`
* `Verif.Modes.ctr_self_inverse`
* `Verif.Modes.ctr_in_eq_out_partial`
* `Verif.Modes.ctr_split`
* `Verif.Modes.ctrIn_small_wrong`
* `Verif.Modes.gcm_roundtrip`
* `Verif.Modes.gcmEncrypt_split`
* `Verif.Modes.gcmUpdate_split`
* `Verif.Modes.gcm_session_wf`
* `Verif.Modes.gcm_standard`
* `Verif.Modes.gcm_standard_any`
* `Verif.Modes.gfMul_correct`
* `Verif.Modes.gpoly_injective`
* `Verif.Modes.gfMul_comm`
* `Verif.Modes.gfMul_assoc`
* `Verif.Modes.gfMul_distrib`
* `Verif.Modes.gfMul_eq_zero`
* `Verif.Modes.gfMul_inverse`
* `Verif.Gf.gcm_irreducible`
* `Verif.Modes.cmac_correct`
* `Verif.Hash.hmac_sha256`
* `Verif.Hash.hmac_sha1`
* `Verif.Hash.hmac_md5`
* `Verif.Modes.unwrap_wrap`
* `Verif.Modes.unwrap_accepts_iff`
* `Verif.Modes.wrap_standard`
* `Verif.Aes.aes_wrap_roundtrip`
* `Verif.Aes.encrypt_fips`
* `Verif.Aes.decrypt_fips`
* `Verif.Aes.decrypt_encrypt`
* `Verif.Aes.encrypt_history_partial`
* `Verif.Aes.alternation_wrong`
* `Verif.Des.des_block`
* `Verif.Des.des_standard`
* `Verif.Des.des_roundtrip`
* `Verif.Des.des_complement`
* `Verif.Hash.Sha256.sha256_correct`
* `Verif.Hash.Sha256.sha256_oneshot`
* `Verif.Hash.Sha256.sha256_constants`
* `Verif.Hash.Sha1.sha1_correct`
* `Verif.Hash.Sha1.sha1_oneshot`
* `Verif.Hash.Md5.md5_correct`
* `Verif.Hash.Md5.md5_oneshot`
* `Verif.Hash.Sha512.sha512_partial`
* `Verif.Hash.Sha512.sha512_no_length`
* `Verif.Hash.Sha512.sha512_wrong`
* `Verif.Hash.Sha512.sha512_constants`
* `Verif.Crc.ccitt_remainder`
* `Verif.Crc.dnp_remainder`
* `Verif.Crc.ibm_remainder`
* `Verif.Crc.eth_remainder`
* `Verif.Crc.reg_injective`
* `Verif.Crc.digest16_value`
* `Verif.Crc.digest32_value`
* `Verif.Crc.ccitt_detects`
* `Verif.Crc.dnp_detects`
* `Verif.Crc.ibm_detects`
* `Verif.Crc.eth_detects`
* `Verif.Base64.base64_roundtrip`
* `Verif.Base64.encode_correct`
* `Verif.Base64.decode_rejects_iff`
* `Verif.Trivium.trivium_standard`
* `Verif.Trivium.trivium_forgets`
* `Verif.Trivium.trivium_self_inverse`
* `Verif.Trivium.trivium_split`
* `Verif.Affine.affine_init_iff`
* `Verif.Affine.affine_roundtrip_partial`
* `Verif.Affine.affine_standard`
* `Verif.Hill.hill_init_iff`
* `Verif.Hill.hill_roundtrip_partial`
* `Verif.Hill.hill_standard`
* `Verif.Hill.hill_empty_key_hangs`
* `Verif.PrngAes.prngAes_stream`
* `Verif.PrngAes.prngAes_chunks`
* `Verif.PrngAes.prngAes_unseeded`
* `Verif.Lfsr.lfsr_deterministic_partial`
* `Verif.Lfsr.lfsr_not_stuck_partial`
* `Verif.Lfsr.lfsr_degenerate`
* `Verif.Lfsr.lfsr_nonzero`
* `Verif.Lfsr.lfsr_recurrence`
* `Verif.Lfsr.lfsr_sequences`
* `Verif.Dh.dh_agree_partial`
* `Verif.Dh.dh_one_wrong`
* `Verif.Dh.dh_stale_sign`
* `Verif.Dsa.dsa_sign_spec`
* `Verif.Dsa.dsa_complete`
* `Verif.Dsa.dsa_verify_iff`
* `Verif.Dsa.dsa_sound_partial`
* `Verif.Dsa.dsa_forgery`
* `Verif.Dsa.dsa_large_s`
* `Verif.Elgamal.elgamal_complete`
* `Verif.Elgamal.elgamal_complete_bytes`
* `Verif.Elgamal.elgamal_sign_ok`
* `Verif.Ecdsa.ecdsa_sign_spec`
* `Verif.Ecdsa.ecdsa_complete_partial`
* `Verif.Ecdsa.ecdsa_sign_verify_partial`
* `Verif.Ecdsa.ecdsa_verify_iff`
* `Verif.Ecdsa.ecdsa_sound`
* `Verif.Ecdsa.ecdsa_large_r`
* `Verif.Ecdsa.ecdsa_sign_ub`
* `Verif.Ecdsa.ecdsa_keygen`
* `Verif.Ecp.builtin_ecdsa`
* `Verif.Rsa.rsa_roundtrip_partial`
* `Verif.Rsa.rsa_nopad_partial`
* `Verif.Rsa.rsa_multiblock_wrong`
* `Verif.Rsa.rsa_eleven_hangs`
* `Verif.Rsa.padding_add_long`
* `Verif.Rsa.padding_short_accepted`
* `Verif.Rsa.rsa_sign_verify_partial`
* `Verif.Rsa.rsa_verify_iff`
* `Verif.Rsa.rsa_second_signature`
* `Verif.Rsa.rsa_long_sign_rejected`
* `Verif.Rsa.rsa_junk_accepted`
* `Verif.Ecp.ecp_dbl_partial`
* `Verif.Ecp.ecp_dbl_order_two_fails`
* `Verif.Ecp.ecp_add_partial`
* `Verif.Ecp.ecp_add_order_two_fails`
* `Verif.Ecp.ecp_order_two_example`
* `Verif.Ecp.ecp_mul_partial`
* `Verif.Ecp.ecp_mul_sound`
* `Verif.Ecp.ecp_mul_even_fails`
* `Verif.Ecdh.ecdh_agree`
* `Verif.Ecdh.ecdh_agree_any`
* `Verif.Ecp.grpLoad_iff`
* `Verif.Ecp.builtin_base_point`
* `Verif.LongInv.longInv_correct`
* `Verif.Elgamal.elgamal_verify_iff`
* `Verif.Elgamal.elgamal_sound_partial`
* `Verif.Elgamal.elgamal_forgery`
* `Verif.Elgamal.elgamal_forgery_exists`
* `Verif.Elgamal.elgamal_zero`
* `Verif.Ecp.builtin_prime_order`
* `Verif.Ecp.builtin_arith`
* `Verif.Ecp.builtin_ecdh`
* `Verif.Mpi.prime_success_iff_partial`
* `Verif.Mpi.prime_form_partial`
* `Verif.Mpi.prime_product`
* `Verif.Mpi.prime_bad_length`
* `Verif.Mpi.prime_last_turn`
* `Verif.Mpi.prime_one_turn`
* `Verif.Mpi.prime_short`
* `Verif.Mpi.prime_hangs`
* `Verif.RsaGen.rsa_keygen_partial`
* `Verif.RsaGen.rsa_keygen_completed`
* `Verif.DsaGen.dsa_keygen_partial`
* `Verif.DsaGen.dsa_keygen_lengths`
* `Verif.DsaGen.dsa_keygen_key`
* `Verif.DsaGen.dsa_keygen_sign`
* `Verif.DsaGen.dsa_keygen_run`
* `Verif.DsaGen.dsa_keygen_zero_private`
* `Verif.DsaGen.dsa_keygen_private_range`
* `Verif.Modes.aes_ctx_enc`
* `Verif.Modes.aes_ctx_dec`
* `Verif.Modes.aes_cbc`
* `Verif.Modes.aes_ctr`
* `Verif.Modes.aes_cfb`
* `Verif.Modes.aes_cfb8`
* `Verif.Modes.aes_gcm`
* `Verif.Modes.aes_cmac`
* `Verif.Modes.aes_wrap`
* `Verif.Modes.des_cbc`
* `Verif.Mem.mem_copy`
* `Verif.Mem.mem_abs`
* `Verif.Mem.mem_addAbs`
* `Verif.Mem.mem_subAbs`
* `Verif.Mem.mem_subAbs_small`
* `Verif.Mem.mem_add`
* `Verif.Mem.mem_sub`
* `Verif.Mem.mem_shl`
* `Verif.Mem.mem_shr`
* `Verif.Mem.mem_shr_any`
* `Verif.Mem.mem_cmp`
* `Verif.Mem.mem_cmpAbs`
* `Verif.Mem.mem_init`
* `Verif.Mem.mem_mul`
* `Verif.Mem.mem_mulDig`
* `Verif.Mem.mem_mulDig_any`
* `Verif.Mem.mem_sqr_partial`
* `Verif.Mem.mem_sqr_any`
* `Verif.Mem.mem_divAbs`
* `Verif.Mem.mem_divAbs_zero`
* `Verif.Mem.mem_div_partial`
* `Verif.Mem.mem_mod`
* `Verif.Mem.mem_modExp_partial`
* `Verif.Mem.mem_exp_partial`
* `Verif.Mem.mem_gcd`
* `Verif.Mem.mem_lcm`
* `Verif.Mem.mem_inv_partial`
* `Verif.Mem.mem_inv_never_returns`
* `Verif.Mem.mem_sqrt`
* `Verif.Mem.mem_loadBin`
* `Verif.Mem.mem_initBin`
* `Verif.Mem.mem_storeBin`
* `Verif.Mem.mem_storeBin_small`
* `Verif.Mem.mem_storeStr`
* `Verif.Mem.mem_print_partial`
* `Verif.Mem.mem_print_hex`
* `Verif.Mem.mem_print_overruns`
* `Verif.Mem.mem_loadStr`
* `Verif.Mem.mem_loadStr_invalid`
* `Verif.Mem.mem_initStr`
* `Verif.Ram.ram_cbc_encrypt`
* `Verif.Ram.ram_cbc_decrypt_out`
* `Verif.Ram.ram_cbc_decrypt_in`
* `Verif.Ram.ram_cbc_decrypt_in_nomem`
* `Verif.Ram.ram_cbc_roundtrip_partial`
* `Verif.Ram.ram_cbc_encrypt_ahead`
* `Verif.Ram.ram_cbc_encrypt_ahead_bad`
* `Verif.Ram.ram_cbc_decrypt_behind`
* `Verif.Ram.ram_cbc_decrypt_behind_bad`
* `Verif.Ram.ram_cbc_decrypt_empty`
* `Verif.Ram.ram_cfb_whole`
* `Verif.Ram.ram_cfb_rest_partial`
* `Verif.Ram.ram_cfb_overread`
* `Verif.Ram.ram_cfb8_encrypt`
* `Verif.Ram.ram_cfb8_decrypt_partial`
* `Verif.Ram.ram_cfb8_decrypt_empty`
* `Verif.Ram.ram_cfb8_roundtrip`
* `Verif.Ram.ram_cfb8_register_bad`
* `Verif.Ram.ram_ctr_out`
* `Verif.Ram.ram_ctr_in_partial`
* `Verif.Ram.ram_ctr_in_short`
* `Verif.Ram.ram_ctr_twice_partial`
* `Verif.Ram.ram_ctr_ahead`
* `Verif.Ram.ram_ctr_ahead_bad`
* `Verif.Ram.ram_ctr_in_small`
* `Verif.Ram.ram_ctr_in_small_bad`
* `Verif.Mem.mem_ecp_dbl_partial`
* `Verif.Mem.mem_ecp_dbl_order_two`
* `Verif.Mem.mem_ecp_add_partial`
* `Verif.Mem.mem_ecp_add_order_two`
* `Verif.Mem.mem_ecp_dbl_failure_lost`
* `Verif.Mem.mem_ecp_mul_partial`
* `Verif.Mem.mem_ecp_mul_sound`
* `Verif.Mem.mem_ecp_mul_no_window`
* `Verif.Mem.mem_ecp_mul_false_success`
* `Verif.Mem.mem_ecp_init`
* `Verif.Mem.mem_ecp_init_int`
* `Verif.Mem.mem_ecp_copy`
* `Verif.Mem.mem_ecp_clear`
* `Verif.Mem.mem_ecp_init_list`
* `Verif.Mem.mem_ecp_clear_list`
* `Verif.Mem.mem_ecp_grp_init`
* `Verif.Mem.mem_ecp_grp_clear`
* `Verif.Mem.mem_rand_partial`
* `Verif.Mem.mem_randRange_partial`
* `Verif.Mem.mem_dsa_verify_partial`
* `Verif.Mem.mem_dsa_verify_lost`
* `Verif.Mem.mem_dsa_sign_partial`
* `Verif.Mem.mem_dsa_sign_lost`
* `Verif.Mem.mem_dsa_sign_verify`
* `Verif.Mem.mem_ecdsa_verify_partial`
* `Verif.Mem.mem_ecdsa_verify_ub`
* `Verif.Mem.mem_ecdsa_verify_forged`
* `Verif.Mem.mem_ecdsa_sign_partial`
* `Verif.Mem.mem_ecdsa_sign_lost`
* `Verif.Mem.mem_ecdsa_sign_verify`
* `Verif.Mem.mem_grp_load`
* `Verif.Mem.mem_grp_load_unknown`
* `Verif.Mem.mem_grp_load_leak`
* `Verif.Mem.mem_ecdsa_init`
* `Verif.Mem.mem_ecdsa_init_load`
* `Verif.Mem.mem_ecdsa_init_unknown`
* `Verif.Mem.mem_ecdsa_clear`
* `Verif.Mem.mem_ecdh_init_partial`
* `Verif.Mem.mem_ecdh_init_plenty`
* `Verif.Mem.mem_ecdh_init_lost`
* `Verif.Mem.mem_ecdh_clear`
* `Verif.Mem.mem_ecdh_load_leak`
* `Verif.Mem.mem_ecdsa_keygen_partial`
* `Verif.Mem.mem_ecdsa_keygen_lost`
* `Verif.Mem.mem_ecdsa_keygen_zero`
* `Verif.Mem.mem_ecdsa_life`
* `Verif.Mem.mem_ecdh_agree_partial`
* `Verif.Mem.mem_ecdh_final_partial`
* `Verif.Mem.mem_ecdh_lost`
* `Verif.Mem.mem_ecdh_shared`
* `Verif.Mem.mem_initList`
* `Verif.Mem.mem_dh_init`
* `Verif.Mem.mem_dh_clear`
* `Verif.Mem.mem_dh_agree_partial`
* `Verif.Mem.mem_dh_finalize_partial`
* `Verif.Mem.mem_dh_side`
* `Verif.Mem.mem_dh_shared`
* `Verif.Mem.mem_elgamal_verify2_partial`
* `Verif.Mem.mem_elgamal_verify_partial`
* `Verif.Mem.mem_elgamal_verify2_any_partial`
* `Verif.Mem.mem_elgamal_verify_any_partial`
* `Verif.Mem.mem_elgamal_sign2_partial`
* `Verif.Mem.mem_elgamal_sign_partial`
* `Verif.Mem.mem_elgamal_sign_verify`
* `Verif.Mem.mem_elgamal_init`
* `Verif.Mem.mem_elgamal_clear`
* `Verif.Ram.gcm_seal_ram`
* `Verif.Ram.gcm_open_ram`
* `Verif.Ram.gcm_safe_ram`
* `Verif.Ram.gcm_place_needed`
* `Verif.Ram.arc4_ram`
* `Verif.Ram.arc4_overlap_wrong`
* `Verif.Ram.trivium_ram`
* `Verif.Ram.trivium_overlap_iff`
* `Verif.Ram.affine_ram`
* `Verif.Ram.affine_overlap_wrong`
* `Verif.Ram.hill_ram`
* `Verif.Ram.hill_tail_ub`
* `Verif.Ram.hill_tail_clobbers`
* `Verif.Ram.b64_encode_iff`
* `Verif.Ram.b64_decode_iff`
* `Verif.Ram.b64_decode_rejects`
* `Verif.Ram.wrap_ram`
* `Verif.Ram.unwrap_ram`
* `Verif.Ram.wrap_unwrap_ram`
* `Verif.Ram.wrap_defined_iff`
* `Verif.Ram.unwrap_defined_iff`
* `Verif.Ram.wrap_loses_input`
* `Verif.Ram.wrap_loses_key`
* `Verif.Ram.unwrap_loses_key`
* `Verif.Mem.mem_is_prime_partial`
* `Verif.Mem.mem_is_prime_accepts`
* `Verif.Mem.mem_is_prime_zero_base`
* `Verif.Mem.mem_is_prime_one`
* `Verif.Mem.mem_prime_partial`
* `Verif.Mem.mem_rsa_encrypt_partial`
* `Verif.Mem.mem_rsa_decrypt_partial`
* `Verif.Mem.mem_rsa_verify_partial`
* `Verif.Mem.mem_rsa_roundtrip_partial`
* `Verif.Mem.mem_rsa_sign_verify_partial`
* `Verif.Mem.mem_rsa_nopad`
* `Verif.Mem.mem_rsa_multiblock`
* `Verif.Mem.mem_rsa_eleven`
* `Verif.Mem.mem_rsa_empty`
* `Verif.Mem.mem_rsa_init`
* `Verif.Mem.mem_rsa_clear`
* `Verif.Mpi.div_small_same`
* `Verif.Mpi.div_small_correct_partial`
* `Verif.Mpi.inv_bin_correct_partial`
* `Verif.Mpi.inv_bin_not_coprime_wrong`
* `Verif.Mpi.inv_bin_never_ends`
* `Verif.Mpi.mul_options_partial`
* `Verif.Mpi.mul_options_comba_wrong`
* `Verif.Mpi.sqr_options_partial`
* `Verif.Ecp.ecp_mul_bin_partial`
* `Verif.Ecp.ecp_mul_bin_sound`
* `Verif.Ecp.ecp_mul_bin_even_fails`
* `Verif.Mem.mem_inv_safe`
* `Verif.Mem.mem_ecp_dbl_safe`
* `Verif.Mem.mem_ecp_add_safe`
* `Verif.Mem.mem_ecp_mul_safe`
* `Verif.Mem.mem_ecdh_safe`
* `Verif.Mem.mem_ecdsa_keygen_safe`
* `Verif.Mem.mem_ecdsa_sign_safe`
* `Verif.Mem.mem_ecdsa_verify_safe_partial`
