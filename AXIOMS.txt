C01 Verif.Props.Sha256.C01_sha256_correct: propext, Classical.choice, Quot.sound
C02 Verif.Props.Sha256.C02_update_chunking: propext, Classical.choice, Quot.sound
C03 Verif.Props.Sha256.C03_length_limit_checked: propext, Classical.choice, Quot.sound
C03 Verif.Props.Sha256.C03_length_limit_unchecked: propext, Classical.choice, Quot.sound
C03 Verif.Props.Sha256.C03_length_limit_w64: propext, Classical.choice, Quot.sound
C03 Verif.Props.Sha256.C03_length_limit_w32: propext, Classical.choice, Quot.sound
C04 Verif.Props.Sha256.C04_history: propext, Classical.choice, Quot.sound
C04 Verif.Props.Sha256.C04_second_digest_differs: propext, Classical.choice, Quot.sound
C05 Verif.Props.Sha256.C05_round_constants: propext, Classical.choice, Quot.sound
C05 Verif.Props.Sha256.C05_initial_words: propext, Classical.choice, Quot.sound
C06 Verif.Props.Hmac.C06_hmac_correct: propext, Classical.choice, Quot.sound
C06 Verif.Props.Hmac.C06_hmac_unchecked: propext, Classical.choice, Quot.sound
C07 Verif.Props.Hmac.C07_zero_extended_key: propext, Quot.sound
C07 Verif.Props.Hmac.C07_long_key: propext, Classical.choice, Quot.sound
C07 Verif.Props.Hmac.C07_distinct_keys: propext, Quot.sound
C08 Verif.Props.Pbkdf2.C08_pbkdf2_correct: propext, Classical.choice, Quot.sound
C08 Verif.Props.Pbkdf2.C08_pbkdf2_unchecked: propext, Classical.choice, Quot.sound
C08 Verif.Props.Pbkdf2.C08_pbkdf2_panics_iff: propext, Classical.choice, Quot.sound
C09 Verif.Props.Pbkdf2.C09_buffer_contents_irrelevant: propext, Classical.choice, Quot.sound
C09 Verif.Props.Pbkdf2.C09_prefix: propext, Classical.choice, Quot.sound
C10 Verif.Props.Pbkdf2.C10_zero_iterations: propext, Quot.sound
C100 Verif.Props.Locked.C100_opens: propext, Classical.choice, Quot.sound
C100 Verif.Props.Locked.C100_pbkdf2: propext, Classical.choice, Quot.sound
C100 Verif.Props.Locked.C100_scrypt: propext, Classical.choice, Quot.sound
C100 Verif.Props.Locked.C100_size: propext, Classical.choice, Quot.sound
C100 Verif.Props.Locked.C100_guess: propext, Classical.choice, Quot.sound
C101 Verif.Props.Diffusion.C101_encrypt: propext, Classical.choice, Quot.sound
C101 Verif.Props.Diffusion.C101_decrypt: propext, Classical.choice, Quot.sound
C101 Verif.Props.Diffusion.C101_byte: propext, Classical.choice, Quot.sound
C102 Verif.Props.Rekey.C102_reveals: propext, Classical.choice, Quot.sound
C102 Verif.Props.Rekey.C102_chance: propext, Classical.choice, Quot.sound
C102 Verif.Props.Rekey.C102_size: propext, Classical.choice, Quot.sound
C102 Verif.Props.Rekey.C102_safe: propext, Classical.choice, Quot.sound
C103 Verif.Props.Commit.C103_scrypt: propext, Classical.choice, Quot.sound
C103 Verif.Props.Commit.C103_pbkdf2: propext, Classical.choice, Quot.sound
C103 Verif.Props.Commit.C103_tag: propext, Classical.choice, Quot.sound
C103 Verif.Props.Commit.C103_box_scrypt: propext, Classical.choice, Quot.sound
C103 Verif.Props.Commit.C103_box_pbkdf2: propext, Classical.choice, Quot.sound
C104 Verif.Props.Memory.C104_same: propext, Quot.sound
C104 Verif.Props.Memory.C104_peak: propext, Classical.choice, Quot.sound
C104 Verif.Props.Memory.C104_bounds: propext, Classical.choice, Quot.sound
C104 Verif.Props.Memory.C104_alike: propext, Classical.choice, Quot.sound
C104 Verif.Props.Memory.C104_nothing_left: propext, Classical.choice, Quot.sound
C105 Verif.Props.MemoryCbc.C105_cipher_same: propext, Quot.sound
C105 Verif.Props.MemoryCbc.C105_cipher: propext, Classical.choice, Quot.sound
C105 Verif.Props.MemoryCbc.C105_cipher_dropped: propext, Classical.choice, Quot.sound
C105 Verif.Props.MemoryCbc.C105_decipher_same: propext, Quot.sound
C105 Verif.Props.MemoryCbc.C105_decipher: propext, Classical.choice, Quot.sound
C105 Verif.Props.MemoryCbc.C105_decipher_dropped: propext, Classical.choice, Quot.sound
C106 Verif.Props.ManySalts.C106_pbkdf2: propext, Classical.choice, Quot.sound
C106 Verif.Props.ManySalts.C106_scrypt: propext, Classical.choice, Quot.sound
C106 Verif.Props.ManySalts.C106_sizes: propext, Classical.choice, Quot.sound
C107 Verif.Props.CbcSpread.C107_stays: propext, Classical.choice, Quot.sound
C107 Verif.Props.CbcSpread.C107_change: propext, Classical.choice, Quot.sound
C107 Verif.Props.CbcSpread.C107_iv: propext, Classical.choice, Quot.sound
C108 Verif.Props.SecretIv.C108_blocks: propext, Classical.choice, Quot.sound
C108 Verif.Props.SecretIv.C108_reveals: propext, Classical.choice, Quot.sound
C108 Verif.Props.SecretIv.C108_key: propext, Classical.choice, Quot.sound
C109 Verif.Props.SourcePkcs7.C109_pad: propext, Classical.choice, Quot.sound
C109 Verif.Props.SourcePkcs7.C109_unpad: propext, Classical.choice, Quot.sound
C109 Verif.Props.SourcePkcs7.C109_roundtrip: propext, Classical.choice, Quot.sound
C11 Verif.Props.Pbkdf2.C11_too_long_key_repeats: propext, Classical.choice, Quot.sound
C110 Verif.Props.Guessing.C110_program: propext, Classical.choice, Quot.sound
C110 Verif.Props.Guessing.C110_guesses: propext, Classical.choice, Quot.sound
C110 Verif.Props.Guessing.C110_password: propext, Classical.choice, Quot.sound
C110 Verif.Props.Guessing.C110_shortcut: propext, Classical.choice, Quot.sound
C110 Verif.Props.Guessing.C110_attack: propext, Classical.choice, Quot.sound
C110 Verif.Props.Guessing.C110_same_salt: propext, Classical.choice, Quot.sound
C111 Verif.Props.GuessingScrypt.C111_program: propext, Classical.choice, Quot.sound
C111 Verif.Props.GuessingScrypt.C111_guesses: propext, Classical.choice, Quot.sound
C111 Verif.Props.GuessingScrypt.C111_password: propext, Classical.choice, Quot.sound
C111 Verif.Props.GuessingScrypt.C111_shortcut: propext, Classical.choice, Quot.sound
C111 Verif.Props.GuessingScrypt.C111_attack: propext, Classical.choice, Quot.sound
C112 Verif.Props.TableMemory.C112_program: propext, Classical.choice, Quot.sound
C112 Verif.Props.TableMemory.C112_tradeoff: propext, Classical.choice, Quot.sound
C112 Verif.Props.TableMemory.C112_octets: propext, Classical.choice, Quot.sound
C112 Verif.Props.TableMemory.C112_strategy: propext, Classical.choice, Quot.sound
C113 Verif.Props.MemoryHard.C113_program: propext, Classical.choice, Quot.sound
C113 Verif.Props.MemoryHard.C113_machine: propext, Classical.choice, Quot.sound
C113 Verif.Props.MemoryHard.C113_octets: propext, Classical.choice, Quot.sound
C113 Verif.Props.MemoryHard.C113_keeper: propext, Classical.choice, Quot.sound
C114 Verif.Props.MemoryTime.C114_machine: propext, Classical.choice, Quot.sound
C114 Verif.Props.MemoryTime.C114_octets: propext, Classical.choice, Quot.sound
C114 Verif.Props.MemoryTime.C114_keeper: propext, Classical.choice, Quot.sound
C114 Verif.Props.MemoryHard.C113_program: propext, Classical.choice, Quot.sound
C115 Verif.Props.Multicollision.C115_many: propext, Classical.choice, Quot.sound
C115 Verif.Props.Multicollision.C115_beside: propext, Classical.choice, Quot.sound
C115 Verif.Props.Multicollision.searches_exist: propext, Classical.choice, Quot.sound
C116 Verif.Props.KeySchedule.C116_key: propext, Classical.choice, Quot.sound
C116 Verif.Props.KeySchedule.C116_each: propext, Classical.choice, Quot.sound
C117 Verif.Props.HmacExtend.C117_continues: propext, Classical.choice, Quot.sound
C117 Verif.Props.HmacExtend.C117_collision: propext, Classical.choice, Quot.sound
C117 Verif.Props.HmacExtend.pairs_exist: propext, Classical.choice, Quot.sound
C118 Verif.Props.Trail.C118_sbox: propext, Classical.choice, Quot.sound
C118 Verif.Props.Trail.C118_trail: propext, Classical.choice, Quot.sound
C118 Verif.Props.Trail.C118_rounds: propext, Classical.choice, Quot.sound
C118 Verif.Props.Trail.C118_program: propext, Classical.choice, Quot.sound
C118 Verif.Props.Trail.C118_keys: propext, Classical.choice, Quot.sound
C119 Verif.Props.Linear.C119_sbox: propext, Classical.choice, Quot.sound
C119 Verif.Props.Linear.C119_rounds: propext, Classical.choice, Quot.sound
C119 Verif.Props.Linear.C119_returns: propext, Classical.choice, Quot.sound
C119 Verif.Props.Linear.C119_program: propext, Classical.choice, Quot.sound
C119 Verif.Props.Linear.C119_keys: propext, Classical.choice, Quot.sound
C12 Verif.Props.Salsa20.C12_salsa20_correct: propext, Classical.choice, Quot.sound
C12 Verif.Props.Salsa20.columnround_equations: propext, Quot.sound
C120 Verif.Props.FixedPoint.C120_one: propext, Quot.sound
C120 Verif.Props.FixedPoint.C120_update: propext, Classical.choice, Quot.sound
C120 Verif.Props.FixedPoint.C120_repeated: propext, Classical.choice, Quot.sound
C121 Verif.Props.Even.C121_even: propext, Classical.choice, Quot.sound
C121 Verif.Props.Even.C121_program: propext, Classical.choice, Quot.sound
C121 Verif.Props.Even.C121_half: propext, Classical.choice, Quot.sound
C121 Verif.Props.Even.C121_three: propext, Classical.choice, Quot.sound
C122 Verif.Props.Iterations.C122_related: propext, Classical.choice, Quot.sound
C122 Verif.Props.Iterations.C122_test: propext, Classical.choice, Quot.sound
C122 Verif.Props.Iterations.C122_cost: propext, Classical.choice, Quot.sound
C123 Verif.Props.CbcMac.C123_iv: propext, Classical.choice, Quot.sound
C123 Verif.Props.CbcMac.C123_join: propext, Classical.choice, Quot.sound
C124 Verif.Props.CbcPaste.C124_pasted: propext, Classical.choice, Quot.sound
C124 Verif.Props.CbcPaste.C124_accepted: propext, Classical.choice, Quot.sound
C125 Verif.Props.ShortTags.C125_forgery: propext, Classical.choice, Quot.sound
C125 Verif.Props.ShortTags.C125_queries: propext, Quot.sound
C125 Verif.Props.ShortTags.C125_attempts: propext, Classical.choice, Quot.sound
C125 Verif.Props.ShortTags.C125_search: propext, Classical.choice, Quot.sound
C126 Verif.Props.TwoKeys.C126_meet: propext, Classical.choice, Quot.sound
C127 Verif.Props.Chase.C127_found: propext, Classical.choice, Quot.sound
C128 Verif.Props.OnePart.C128_part: propext, Classical.choice, Quot.sound
C129 Verif.Props.WhichError.C129_cipher: propext, Classical.choice, Quot.sound
C129 Verif.Props.WhichError.C129_decipher: propext, Classical.choice, Quot.sound
C129 Verif.Props.WhichError.C129_told_apart: propext
C13 Verif.Props.Salsa20.C13_panics_iff: propext, Classical.choice, Quot.sound
C13 Verif.Props.Salsa20.C13_first_block_only: propext, Classical.choice, Quot.sound
C130 Verif.Props.Caught.C130_history: propext, Classical.choice, Quot.sound
C130 Verif.Props.Caught.C130_cut: propext, Classical.choice, Quot.sound
C130 Verif.Props.Caught.C130_lost: propext, Classical.choice, Quot.sound
C130 Verif.Props.Caught.C130_stuck: propext, Classical.choice, Quot.sound
C131 Verif.Props.CaughtDecipher.C131_history: propext, Classical.choice, Quot.sound
C131 Verif.Props.CaughtDecipher.C131_cut: propext, Classical.choice, Quot.sound
C131 Verif.Props.CaughtDecipher.C131_dead: propext, Classical.choice, Quot.sound
C132 Verif.Props.CbcCut.C132_cut: propext, Classical.choice, Quot.sound
C132 Verif.Props.CbcCut.C132_zero: propext, Classical.choice, Quot.sound
C132 Verif.Props.CbcCut.C132_text: propext, Classical.choice, Quot.sound
C133 Verif.Props.Rejected.C133_spoiled: propext, Classical.choice, Quot.sound
C133 Verif.Props.Rejected.C133_fresh: propext, Classical.choice, Quot.sound
C134 Verif.Props.CacheLines.C134_lines: propext, Classical.choice, Quot.sound
C134 Verif.Props.CacheLines.C134_bits: propext, Classical.choice, Quot.sound
C134 Verif.Props.CacheLines.C134_key: propext, Classical.choice, Quot.sound
C134 Verif.Props.CacheLines.C134_decrypt_key: propext, Classical.choice, Quot.sound
C135 Verif.Props.Stray.C135_shifted: propext, Classical.choice, Quot.sound
C135 Verif.Props.Stray.C135_kept: propext, Classical.choice, Quot.sound
C136 Verif.Props.Branches.C136_bits: propext, Classical.choice, Quot.sound
C136 Verif.Props.Branches.C136_key: propext, Classical.choice, Quot.sound
C137 Verif.Props.Peek.C137_seen: propext, Classical.choice, Quot.sound
C137 Verif.Props.Peek.C137_chance: propext, Classical.choice, Quot.sound
C14 Verif.Props.Salsa20.C14_doubleround_permutation: propext, Quot.sound
C14 Verif.Props.Salsa20.C14_no_collapse: propext, Classical.choice, Quot.sound
C15 Verif.Props.Salsa20.C15_collision: propext, Classical.choice, Quot.sound
C16 Verif.Props.Scrypt.C16_scrypt_correct: propext, Classical.choice, Quot.sound
C16 Verif.Props.Scrypt.C16_returns_iff: propext, Classical.choice, Quot.sound
C17 Verif.Props.Scrypt.C17_validation: propext, Classical.choice, Quot.sound
C17 Verif.Props.Scrypt.C17_valid_no_error: propext, Classical.choice, Quot.sound
C17 Verif.Props.Scrypt.C17_errors_exact: propext, Classical.choice, Quot.sound
C18 Verif.Props.Scrypt.C18_violated: propext, Classical.choice, Quot.sound
C18 Verif.Props.Scrypt.C18_outside_accepted: propext, Classical.choice, Quot.sound
C18 Verif.Props.Scrypt.C18_ranges_partial: propext, Classical.choice, Quot.sound
C19 Verif.Props.Scrypt.C19_integerify: propext, Classical.choice, Quot.sound
C20 Verif.Props.Scrypt.C20_block_mix: propext, Classical.choice, Quot.sound
C20 Verif.Props.Scrypt.C20_ro_mix: propext, Classical.choice, Quot.sound
C21 Verif.Props.Scrypt.C21_overflow_panics: propext, Classical.choice, Quot.sound
C21 Verif.Props.Scrypt.C21_wrap_to_zero: propext, Classical.choice, Quot.sound
C21 Verif.Props.Scrypt.C21_wrap_fewer_lanes: propext, Classical.choice, Quot.sound
C22 Verif.Props.Aes.C22_aes_encrypt: propext, Classical.choice, Quot.sound
C23 Verif.Props.Aes.C23_aes_decrypt: propext, Classical.choice, Quot.sound
C24 Verif.Props.Aes.C24_decrypt_encrypt: propext, Classical.choice, Quot.sound
C24 Verif.Props.Aes.C24_encrypt_decrypt: propext, Classical.choice, Quot.sound
C24 Verif.Props.Aes.C24_permutation: propext, Classical.choice, Quot.sound
C25 Verif.Props.Aes.C25_init: propext, Classical.choice, Quot.sound
C25 Verif.Props.Aes.C25_not_initialized: propext, Classical.choice, Quot.sound
C25 Verif.Props.Aes.C26_history: propext, Classical.choice, Quot.sound
C26 Verif.Props.Aes.C26_history: propext, Classical.choice, Quot.sound
C26 Verif.Props.Aes.C26_fresh: propext, Classical.choice, Quot.sound
C27 Verif.Props.AesPoly.C27_mul: propext, Classical.choice, Quot.sound
C27 Verif.Props.AesPoly.C27_mul_byte: propext, Classical.choice, Quot.sound
C27 Verif.Props.AesPoly.C27_sbox: propext, Classical.choice, Quot.sound
C27 Verif.Props.AesPoly.C27_inv_sbox: propext, Classical.choice, Quot.sound
C27 Verif.Props.AesPoly.C27_rcon: propext, Quot.sound
C27 Verif.Props.AesPoly.C27_words: propext, Classical.choice, Quot.sound
C27 Verif.Props.AesPoly.gmul_poly: propext, Classical.choice, Quot.sound
C27 Verif.Props.AesPoly.ginv_inverse: propext, Classical.choice, Quot.sound
C28 Verif.Props.Cbc.C28_cbc_encrypt: propext, Classical.choice, Quot.sound
C29 Verif.Props.Cbc.C29_lengths: propext, Classical.choice, Quot.sound
C30 Verif.Props.Cbc.C30_roundtrip: propext, Classical.choice, Quot.sound
C31 Verif.Props.Cbc.C31_cipher_progress: propext, Classical.choice, Quot.sound
C31 Verif.Props.Cbc.C31_decipher_progress: propext, Classical.choice, Quot.sound
C32 Verif.Props.Cbc.C32_cbc_decrypt: propext, Classical.choice, Quot.sound
C33 Verif.Props.Cbc.C33_padding_partial: propext, Classical.choice, Quot.sound
C33 Verif.Props.Cbc.C33_refuted: propext, Classical.choice, Quot.sound
C34 Verif.Props.Cbc.C34_incomplete_partial: propext, Classical.choice, Quot.sound
C34 Verif.Props.Cbc.C34_refuted: propext, Classical.choice, Quot.sound
C35 Verif.Props.CbcHistory.C35_cipher: propext, Classical.choice, Quot.sound
C35 Verif.Props.CbcHistory.C35_decipher: propext, Classical.choice, Quot.sound
C35 Verif.Props.CbcHistory.C35_cipher_tail: propext, Classical.choice, Quot.sound
C35 Verif.Props.CbcHistory.C35_decipher_tail: propext, Classical.choice, Quot.sound
C36 Verif.Props.CbcHistory.C36_failed_flush: propext, Quot.sound
C36 Verif.Props.CbcHistory.C36_successful_flush: propext, Quot.sound
C37 Verif.Props.Cbc.C37_message_sequences: propext, Classical.choice, Quot.sound
C38 Verif.Props.CbcHistory.C38_error_propagation: propext, Classical.choice, Quot.sound
C38 Verif.Props.CbcMisuse.C38_flush: propext, Classical.choice, Quot.sound
C39 Verif.Props.CbcHistory.C39_invalid: propext, Quot.sound
C39 Verif.Props.CbcHistory.C39_valid: propext, Classical.choice, Quot.sound
C39 Verif.Props.CbcHistory.C39_cipher_rekey: propext, Classical.choice, Quot.sound
C39 Verif.Props.CbcHistory.C39_decipher_rekey: propext, Classical.choice, Quot.sound
C40 Verif.Props.Pkcs7.C40_pad: propext, Classical.choice, Quot.sound
C40 Verif.Props.Pkcs7.C40_zero: propext
C40 Verif.Props.Pkcs7.C40_unpad: propext, Classical.choice, Quot.sound
C40 Verif.Props.Pkcs7.C40_roundtrip: propext, Classical.choice, Quot.sound
C40 Verif.Props.Pkcs7.C40_pad_unpad: propext, Classical.choice, Quot.sound
C40 Verif.Props.Pkcs7.C40_256: propext, Classical.choice, Quot.sound
C41 Verif.Props.Common.C41_sum: propext
C41 Verif.Props.Common.C41_order: propext, Quot.sound
C42 Verif.Props.Common.C42_aes: propext
C42 Verif.Props.Common.C42_unpad: propext
C42 Verif.Props.Common.C42_decipher: propext
C42 Verif.Props.Common.C42_scrypt: propext
C43 Verif.Props.CbcHistory.C43_cipher: propext, Classical.choice, Quot.sound
C43 Verif.Props.CbcHistory.C43_decipher: propext, Classical.choice, Quot.sound
C43 Verif.Props.Growing.C98_cipher_each: propext, Classical.choice, Quot.sound
C43 Verif.Props.Growing.C98_decipher_each: propext, Classical.choice, Quot.sound
C44 Verif.Props.Cbc.C44_message: propext, Classical.choice, Quot.sound
C44 Verif.Props.Cbc.C44_iv: propext, Classical.choice, Quot.sound
C45 Verif.Props.Hmac.C45_history: propext, Classical.choice, Quot.sound
C45 Verif.Props.Hmac.C45_second_digest_differs: propext, Quot.sound
C46 Verif.Props.Password.C46_pbkdf2_zero_extended: propext, Quot.sound
C46 Verif.Props.Password.C46_pbkdf2_long: propext, Classical.choice, Quot.sound
C46 Verif.Props.Password.C46_scrypt_zero_extended: propext, Quot.sound
C46 Verif.Props.Password.C46_scrypt_long: propext, Classical.choice, Quot.sound
C47 Verif.Props.ScryptShape.C47_buffer_contents_irrelevant: propext, Classical.choice, Quot.sound
C47 Verif.Props.ScryptShape.C47_prefix: propext, Classical.choice, Quot.sound
C47 Verif.Props.ScryptShape.C47_empty: propext, Classical.choice, Quot.sound
C48 Verif.Props.Sha256.C48_length_extension: propext, Classical.choice, Quot.sound
C48 Verif.Props.Sha256.C48_collisions_extend: propext, Classical.choice, Quot.sound
C49 Verif.Props.Sha256.C49_collision_reduction: propext, Classical.choice, Quot.sound
C50 Verif.Props.Salsa20.C50_diagonal_symmetry: propext, Classical.choice, Quot.sound
C50 Verif.Props.Salsa20.C50_symmetric_inputs: propext, Classical.choice, Quot.sound
C50 Verif.Props.Salsa20.C50_zero: propext, Classical.choice, Quot.sound
C50 Verif.Props.Salsa20.C50_no_rounds: propext, Classical.choice, Quot.sound
C51 Verif.Props.CbcMisuse.C51_iv_reuse: propext, Classical.choice, Quot.sound
C52 Verif.Props.CbcMisuse.C52_equal_blocks: propext, Classical.choice, Quot.sound
C53 Verif.Props.CbcMisuse.C53_other_iv: propext, Classical.choice, Quot.sound
C54 Verif.Props.CbcSplit.C54_cipher: propext, Classical.choice, Quot.sound
C54 Verif.Props.CbcSplit.C54_decipher: propext, Classical.choice, Quot.sound
C55 Verif.Props.CbcSplit.C55_cipher: propext, Classical.choice, Quot.sound
C55 Verif.Props.CbcSplit.C55_decipher: propext, Classical.choice, Quot.sound
C56 Verif.Props.CbcMisuse.C56_missing_flush: propext, Classical.choice, Quot.sound
C56 Verif.Props.CbcMisuse.C56_cipher: propext, Classical.choice, Quot.sound
C57 Verif.Props.CbcMisuse.C57_padding_oracle: propext, Classical.choice, Quot.sound
C58 Verif.Props.Hex.C58_hex: propext, Quot.sound
C58 Verif.Props.Hex.C58_panic: propext, Quot.sound
C58 Verif.Props.Hex.C58_odd: propext, Quot.sound
C59 Verif.Props.Platform.C59_sha256: propext, Quot.sound
C59 Verif.Props.Platform.C59_hmac: propext, Quot.sound
C59 Verif.Props.Platform.C59_pbkdf2: propext, Quot.sound
C59 Verif.Props.Platform.C59_scrypt: propext, Classical.choice, Quot.sound
C59 Verif.Props.Platform.C59_converse_fails: propext, Classical.choice, Quot.sound
C60 Verif.Props.Platform.C60_aes: propext, Classical.choice, Quot.sound
C60 Verif.Props.Platform.C60_cipher: propext, Classical.choice, Quot.sound
C60 Verif.Props.Platform.C60_decipher: propext, Classical.choice, Quot.sound
C60 Verif.Props.GrowingSame.C98_cipher_model: propext, Classical.choice, Quot.sound
C60 Verif.Props.GrowingSame.C98_decipher_model: propext, Classical.choice, Quot.sound
C61 Verif.Props.Work.C61_sha256: propext, Classical.choice, Quot.sound
C61 Verif.Props.Work.C61_pbkdf2: propext, Classical.choice, Quot.sound
C61 Verif.Props.Work.C61_scrypt: propext, Classical.choice, Quot.sound
C62 Verif.Props.Source.C62_source_sha256: propext, Classical.choice, Quot.sound
C62 Verif.Props.Source.C62_source_panics: propext, Classical.choice, Quot.sound
C62 Verif.Props.Source.C62_history: propext, Classical.choice, Quot.sound
C63 Verif.Props.Source.C63_source_hmac: propext, Classical.choice, Quot.sound
C63 Verif.Props.Source.C63_history: propext, Classical.choice, Quot.sound
C64 Verif.Props.Source.C64_source_pbkdf2: propext, Classical.choice, Quot.sound
C64 Verif.Props.Source.C64_source_panics: propext, Classical.choice, Quot.sound
C65 Verif.Props.Source.C65_source_salsa20: propext, Classical.choice, Quot.sound
C65 Verif.Props.Source.C65_source_panics: propext, Classical.choice, Quot.sound
C66 Verif.Props.Source.C66_source_scrypt: propext, Classical.choice, Quot.sound
C66 Verif.Props.Source.C66_source_errors: propext, Classical.choice, Quot.sound
C66 Verif.Props.Source.C66_source_returns_iff: propext, Classical.choice, Quot.sound
C67 Verif.Props.Source.C67_source_aes: propext, Classical.choice, Quot.sound
C67 Verif.Props.Source.C67_source_default: propext, Quot.sound
C68 Verif.Props.Source.C68_source_cipher: propext, Classical.choice, Quot.sound
C68 Verif.Props.Source.C68_source_decipher: propext, Classical.choice, Quot.sound
C69 Verif.Props.Source.C69_source_encrypt: propext, Classical.choice, Quot.sound
C69 Verif.Props.Source.C69_source_round_trip: propext, Classical.choice, Quot.sound
C70 Verif.Props.Source.C70_sha256: propext, Classical.choice, Quot.sound
C70 Verif.Props.Source.C70_hmac: propext, Classical.choice, Quot.sound
C70 Verif.Props.Source.C70_pbkdf2: propext, Classical.choice, Quot.sound
C70 Verif.Props.Source.C70_salsa20: propext, Quot.sound
C70 Verif.Props.Source.C70_scrypt: propext, Classical.choice, Quot.sound
C70 Verif.Props.Source.C70_aes: propext, Classical.choice, Quot.sound
C70 Verif.Props.Source.C70_cipher: propext, Classical.choice, Quot.sound
C70 Verif.Props.Source.C70_decipher: propext, Classical.choice, Quot.sound
C71 Verif.Props.Source.C71_messages: propext, Quot.sound
C72 Verif.Props.ConstantTime.C72_call: propext, Quot.sound
C72 Verif.Props.ConstantTime.C72_session: propext, Quot.sound
C72 Verif.Props.ConstantTime.C72_sha256: propext, Quot.sound
C72 Verif.Props.ConstantTime.C72_hmac: propext, Quot.sound
C72 Verif.Props.ConstantTime.C72_pbkdf2: propext, Quot.sound
C72 Verif.Props.ConstantTime.C72_salsa20: propext, Quot.sound
C73 Verif.Props.ConstantTime.C73_only_leaks: propext, Quot.sound
C74 Verif.Props.SideChannel.C74_aes: propext, Classical.choice, Quot.sound
C74 Verif.Props.SideChannel.C74_cipher: propext, Classical.choice, Quot.sound
C74 Verif.Props.SideChannel.C74_decipher: propext, Classical.choice, Quot.sound
C75 Verif.Props.PaddingOracle.C75_padding: propext, Classical.choice, Quot.sound
C76 Verif.Props.SideChannelScrypt.C76_scrypt: propext, Classical.choice, Quot.sound
C76 Verif.Props.SideChannelScrypt.C76_entries: propext, Classical.choice, Quot.sound
C76 Verif.Props.SideChannelScrypt.C76_leaks: propext, Classical.choice, Quot.sound
C77 Verif.Props.SideChannel.C77: propext, Classical.choice, Quot.sound
C77 Verif.Props.SideChannel.C77_decipher: propext, Classical.choice, Quot.sound
C78 Verif.Props.Attack.C78_decrypt: propext, Classical.choice, Quot.sound
C79 Verif.Props.Attack.C79_forge: propext, Classical.choice, Quot.sound
C80 Verif.Props.Guess.C80_guess: propext, Classical.choice, Quot.sound
C81 Verif.Props.AfterPanic.C81_sha256: propext, Classical.choice, Quot.sound
C81 Verif.Props.AfterPanic.C81_hmac: propext, Classical.choice, Quot.sound
C81 Verif.Props.AfterPanic.C81_sha256_stays_broken: propext, Classical.choice, Quot.sound
C81 Verif.Props.AfterPanic.C81_sha256_right: propext, Classical.choice, Quot.sound
C81 Verif.Props.AfterPanic.C81_hmac_stays_broken: propext, Classical.choice, Quot.sound
C81 Verif.Props.AfterPanic.C81_hmac_right: propext, Classical.choice, Quot.sound
C81 Verif.Props.AfterPanic.C81_case: propext, Classical.choice, Quot.sound
C82 Verif.Props.Untouched.C82_pbkdf2: propext, Classical.choice, Quot.sound
C82 Verif.Props.Untouched.C82_pbkdf2_all_or_nothing: propext, Classical.choice, Quot.sound
C82 Verif.Props.Untouched.C82_scrypt: propext, Classical.choice, Quot.sound
C82 Verif.Props.Untouched.C82_scrypt_filled: propext, Classical.choice, Quot.sound
C82 Verif.Props.Untouched.C82_pbkdf2_case: propext, Classical.choice, Quot.sound
C82 Verif.Props.Untouched.C82_scrypt_case: propext, Classical.choice, Quot.sound
C83 Verif.Props.Untouched.C83_short_input: propext, Classical.choice, Quot.sound
C83 Verif.Props.Untouched.C83_short_output: propext, Classical.choice, Quot.sound
C84 Verif.Props.Resume.C84_cipher: propext, Classical.choice, Quot.sound
C84 Verif.Props.Resume.C84_decipher: propext, Classical.choice, Quot.sound
C84 Verif.Props.Resume.C84_random_access: propext, Classical.choice, Quot.sound
C85 Verif.Props.Interleave.C85_alone: propext, Classical.choice, Quot.sound
C85 Verif.Props.Interleave.C85_sessions: propext, Classical.choice, Quot.sound
C85 Verif.Props.Interleave.C85_messages: propext, Classical.choice, Quot.sound
C86 Verif.Props.FromText.C86_text: propext, Classical.choice, Quot.sound
C86 Verif.Props.FromText.C86_sha256: propext, Classical.choice, Quot.sound
C86 Verif.Props.FromText.C86_hmac: propext, Classical.choice, Quot.sound
C86 Verif.Props.FromText.C86_pbkdf2: propext, Classical.choice, Quot.sound
C86 Verif.Props.FromText.C86_salsa20: propext, Classical.choice, Quot.sound
C86 Verif.Props.FromText.C86_scrypt: propext, Classical.choice, Quot.sound
C86 Verif.Props.FromText.C86_aes: propext, Classical.choice, Quot.sound
C86 Verif.Props.FromText.C86_encrypt: propext, Classical.choice, Quot.sound
C86 Verif.Props.FromText.C86_decrypt: propext, Classical.choice, Quot.sound
C87 Verif.Props.ModelText.C87_sha256: propext, Classical.choice, Quot.sound
C87 Verif.Props.ModelText.C87_hmac: propext, Classical.choice, Quot.sound
C87 Verif.Props.ModelText.C87_pbkdf2: propext, Classical.choice, Quot.sound
C87 Verif.Props.ModelText.C87_salsa20: propext, Classical.choice, Quot.sound
C87 Verif.Props.ModelText.C87_scrypt: propext, Classical.choice, Quot.sound
C87 Verif.Props.ModelText.C87_aes: propext, Classical.choice, Quot.sound
C87 Verif.Props.ModelText.C87_cipher: propext, Classical.choice, Quot.sound
C87 Verif.Props.ModelText.C87_decipher: propext, Classical.choice, Quot.sound
C88 Verif.Props.TextDefects.C88_scrypt: propext, Classical.choice, Quot.sound
C88 Verif.Props.TextDefects.C88_padding: propext, Classical.choice, Quot.sound
C88 Verif.Props.TextDefects.C88_incomplete: propext, Classical.choice, Quot.sound
C89 Verif.Props.Confidential.C89_random: propext, Classical.choice, Quot.sound
C89 Verif.Props.Confidential.C89_left_or_right: propext, Classical.choice, Quot.sound
C89 Verif.Props.Confidential.C89_queries: propext, Quot.sound
C89 Verif.Props.Confidential.C89_same_cipher: propext, Classical.choice, Quot.sound
C89 Verif.Props.Confidential.C89_switch: propext, Classical.choice, Quot.sound
C89 Verif.Props.Confidential.C89_permutation: propext, Classical.choice, Quot.sound
C89 Verif.Props.Confidential.C89_left_or_right_permutation: propext, Classical.choice, Quot.sound
C89 Verif.Props.Confidential.C89_birthday: propext, Classical.choice, Quot.sound
C90 Verif.Props.HmacCollision.C90_collision: propext, Classical.choice, Quot.sound
C90 Verif.Props.HmacCollision.C90_keys: propext, Classical.choice, Quot.sound
C91 Verif.Props.DerivedKeys.C91_random: propext, Classical.choice, Quot.sound
C91 Verif.Props.DerivedKeys.C91_queries: propext, Quot.sound
C91 Verif.Props.DerivedKeys.C91_same_salt: propext, Classical.choice, Quot.sound
C92 Verif.Props.Forgery.C92_forgery: propext, Classical.choice, Quot.sound
C92 Verif.Props.Forgery.C92_queries: propext, Quot.sound
C92 Verif.Props.Forgery.C92_replay: propext, Classical.choice, Quot.sound
C92 Verif.Props.Forgery.C92_attempts: propext, Classical.choice, Quot.sound
C93 Verif.Props.ScryptKeys.C93_random: propext, Classical.choice, Quot.sound
C93 Verif.Props.ScryptKeys.C93_sizes: propext, Classical.choice, Quot.sound
C93 Verif.Props.ScryptKeys.C93_one: propext, Classical.choice, Quot.sound
C93 Verif.Props.ScryptKeys.C93_queries: propext, Quot.sound
C94 Verif.Props.Garbage.C94_accepted: propext, Classical.choice, Quot.sound
C94 Verif.Props.Garbage.C94_padded: propext, Classical.choice, Quot.sound
C95 Verif.Props.HmacRandom.C95_program: propext, Classical.choice, Quot.sound
C95 Verif.Props.HmacRandom.C95_hmac: propext, Classical.choice, Quot.sound
C95 Verif.Props.HmacRandom.C95_questions: propext, Quot.sound
C95 Verif.Props.HmacRandom.C95_loss: propext, Classical.choice, Quot.sound
C95 Verif.Props.HmacRandom.C95_figures: propext, Classical.choice, Quot.sound
C95 Verif.Props.HmacRandom.C95_forgery: propext, Classical.choice, Quot.sound
C95 Verif.Props.HmacRandom.C95_keys: propext, Classical.choice, Quot.sound
C95 Verif.Props.HmacRandom.C95_scrypt: propext, Classical.choice, Quot.sound
C96 Verif.Props.SourceWork.C96_sha256: propext, Classical.choice, Quot.sound
C96 Verif.Props.SourceWork.C96_hmac: propext, Classical.choice, Quot.sound
C96 Verif.Props.SourceWork.C96_pbkdf2: propext, Classical.choice, Quot.sound
C96 Verif.Props.SourceWork.C96_scrypt: propext, Classical.choice, Quot.sound
C96 Verif.Props.SourceWork.C96_scrypt_hashing: propext, Classical.choice, Quot.sound
C96 Verif.Props.SourceWork.C96_encrypt: propext, Classical.choice, Quot.sound
C96 Verif.Props.SourceWork.C96_decrypt: propext, Classical.choice, Quot.sound
C96 Verif.Props.SourceWork.C96_cipher: propext, Classical.choice, Quot.sound
C96 Verif.Props.SourceWork.C96_decipher: propext, Classical.choice, Quot.sound
C97 Verif.Props.Kept.C97_sha256: propext, Classical.choice, Quot.sound
C97 Verif.Props.Kept.C97_hmac: propext, Classical.choice, Quot.sound
C97 Verif.Props.Kept.C97_aes: propext, Classical.choice, Quot.sound
C97 Verif.Props.Kept.C97_aes_keeps: propext, Classical.choice, Quot.sound
C97 Verif.Props.Kept.C97_cipher: propext, Classical.choice, Quot.sound
C97 Verif.Props.Kept.C97_cipher_keeps: propext, Classical.choice, Quot.sound
C97 Verif.Props.Kept.C97_cipher_flushed: propext, Classical.choice, Quot.sound
C97 Verif.Props.Kept.C97_decipher: propext, Classical.choice, Quot.sound
C97 Verif.Props.Kept.C97_decipher_keeps: propext, Classical.choice, Quot.sound
C97 Verif.Props.Kept.C97_decipher_flushed: propext, Classical.choice, Quot.sound
C97 Verif.Props.Kept.C97_decipher_same: propext, Classical.choice, Quot.sound
C98 Verif.Props.Growing.C98_cipher: propext, Classical.choice, Quot.sound
C98 Verif.Props.Growing.C98_cipher_each: propext, Classical.choice, Quot.sound
C98 Verif.Props.Growing.C98_cipher_exact: propext, Classical.choice, Quot.sound
C98 Verif.Props.Growing.C98_cipher_only: propext, Classical.choice, Quot.sound
C98 Verif.Props.Growing.C98_cipher_room: propext, Classical.choice, Quot.sound
C98 Verif.Props.Growing.C98_decipher: propext, Classical.choice, Quot.sound
C98 Verif.Props.Growing.C98_decipher_each: propext, Classical.choice, Quot.sound
C98 Verif.Props.Growing.C98_decipher_exact: propext, Classical.choice, Quot.sound
C98 Verif.Props.Growing.C98_decipher_only: propext, Classical.choice, Quot.sound
C98 Verif.Props.Growing.C98_decipher_room: propext, Classical.choice, Quot.sound
C98 Verif.Props.Growing.C98_scrypt: propext, Classical.choice, Quot.sound
C98 Verif.Props.Growing.C98_scrypt_only: propext, Quot.sound
C98 Verif.Props.Growing.C98_scrypt_exact: propext, Classical.choice, Quot.sound
C98 Verif.Props.GrowingSame.C98_cipher_model: propext, Classical.choice, Quot.sound
C98 Verif.Props.GrowingSame.C98_decipher_model: propext, Classical.choice, Quot.sound
C99 Verif.Props.Sealed.C99_opens: propext, Classical.choice, Quot.sound
C99 Verif.Props.Sealed.C99_sealed: propext, Classical.choice, Quot.sound
C99 Verif.Props.Sealed.C99_iv: propext, Classical.choice, Quot.sound
