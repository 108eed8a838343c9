{
 "claims": [
  {
   "property": "C01",
   "status": "proved",
   "theorems": [
    "Verif.Props.Sha256.C01_sha256_correct"
   ],
   "note": ""
  },
  {
   "property": "C02",
   "status": "proved",
   "theorems": [
    "Verif.Props.Sha256.C02_update_chunking"
   ],
   "note": ""
  },
  {
   "property": "C03",
   "status": "proved",
   "theorems": [
    "Verif.Props.Sha256.C03_length_limit_checked",
    "Verif.Props.Sha256.C03_length_limit_unchecked",
    "Verif.Props.Sha256.C03_length_limit_w64",
    "Verif.Props.Sha256.C03_length_limit_w32"
   ],
   "note": ""
  },
  {
   "property": "C04",
   "status": "proved",
   "theorems": [
    "Verif.Props.Sha256.C04_history",
    "Verif.Props.Sha256.C04_second_digest_differs"
   ],
   "note": ""
  },
  {
   "property": "C05",
   "status": "proved",
   "theorems": [
    "Verif.Props.Sha256.C05_round_constants",
    "Verif.Props.Sha256.C05_initial_words"
   ],
   "note": "real cube and square roots of Mathlib's n-th prime"
  },
  {
   "property": "C06",
   "status": "proved",
   "theorems": [
    "Verif.Props.Hmac.C06_hmac_correct",
    "Verif.Props.Hmac.C06_hmac_unchecked"
   ],
   "note": ""
  },
  {
   "property": "C07",
   "status": "proved",
   "theorems": [
    "Verif.Props.Hmac.C07_zero_extended_key",
    "Verif.Props.Hmac.C07_long_key",
    "Verif.Props.Hmac.C07_distinct_keys"
   ],
   "note": ""
  },
  {
   "property": "C08",
   "status": "proved",
   "theorems": [
    "Verif.Props.Pbkdf2.C08_pbkdf2_correct",
    "Verif.Props.Pbkdf2.C08_pbkdf2_unchecked",
    "Verif.Props.Pbkdf2.C08_pbkdf2_panics_iff"
   ],
   "note": ""
  },
  {
   "property": "C09",
   "status": "proved",
   "theorems": [
    "Verif.Props.Pbkdf2.C09_buffer_contents_irrelevant",
    "Verif.Props.Pbkdf2.C09_prefix"
   ],
   "note": ""
  },
  {
   "property": "C10",
   "status": "proved",
   "theorems": [
    "Verif.Props.Pbkdf2.C10_zero_iterations"
   ],
   "note": ""
  },
  {
   "property": "C100",
   "status": "proved",
   "theorems": [
    "Verif.Props.Locked.C100_opens",
    "Verif.Props.Locked.C100_pbkdf2",
    "Verif.Props.Locked.C100_scrypt",
    "Verif.Props.Locked.C100_size",
    "Verif.Props.Locked.C100_guess"
   ],
   "note": "A reduction that puts C91 or C93 and C99 together. What it says about a password depends on how well HMAC keyed with it can be told from a random function, which for a password that is easy to guess is very well (C100_guess); the number of iterations does not enter there, since attackers are not charged for their own computations. In C110 they are."
  },
  {
   "property": "C101",
   "status": "proved",
   "theorems": [
    "Verif.Props.Diffusion.C101_encrypt",
    "Verif.Props.Diffusion.C101_decrypt",
    "Verif.Props.Diffusion.C101_byte"
   ],
   "note": "The lookups are read off the course of the execution of the translated source, as in C74. 25 in four rounds is the bound of the designers of AES; it says how often the only nonlinear part is involved, not that an attack is impossible."
  },
  {
   "property": "C102",
   "status": "proved",
   "theorems": [
    "Verif.Props.Rekey.C102_reveals",
    "Verif.Props.Rekey.C102_chance",
    "Verif.Props.Rekey.C102_size",
    "Verif.Props.Rekey.C102_safe"
   ],
   "note": "The chances are over the ivs, which the caller chooses; the crate has no source of randomness. The exact chance needs no assumption on AES: it permutes the blocks. C102_safe is relative to AES, as C89 is."
  },
  {
   "property": "C103",
   "status": "proved",
   "theorems": [
    "Verif.Props.Commit.C103_scrypt",
    "Verif.Props.Commit.C103_pbkdf2",
    "Verif.Props.Commit.C103_tag",
    "Verif.Props.Commit.C103_box_scrypt",
    "Verif.Props.Commit.C103_box_pbkdf2"
   ],
   "note": "The collision is one in named computations, as in C90. With more than one iteration PBKDF2 adds up digests, and equal sums do not give a collision; nothing is claimed there."
  },
  {
   "property": "C104",
   "status": "proved",
   "theorems": [
    "Verif.Props.Memory.C104_same",
    "Verif.Props.Memory.C104_peak",
    "Verif.Props.Memory.C104_bounds",
    "Verif.Props.Memory.C104_alike",
    "Verif.Props.Memory.C104_nothing_left"
   ],
   "note": "Sizes as requested from the allocator. The points where a vector is made and dropped are read off the source by hand, as the comments of Model/Heap.lean say; the heap is not followed when a call panics."
  },
  {
   "property": "C105",
   "status": "proved",
   "theorems": [
    "Verif.Props.MemoryCbc.C105_cipher_same",
    "Verif.Props.MemoryCbc.C105_cipher",
    "Verif.Props.MemoryCbc.C105_cipher_dropped",
    "Verif.Props.MemoryCbc.C105_decipher_same",
    "Verif.Props.MemoryCbc.C105_decipher",
    "Verif.Props.MemoryCbc.C105_decipher_dropped"
   ],
   "note": "Sizes as requested from the allocator. The points where a vector is made and dropped are read off the source by hand (Model/HeapCbc.lean); the heap is not followed when a call panics."
  },
  {
   "property": "C106",
   "status": "proved",
   "theorems": [
    "Verif.Props.ManySalts.C106_pbkdf2",
    "Verif.Props.ManySalts.C106_scrypt",
    "Verif.Props.ManySalts.C106_sizes"
   ],
   "note": "A bound relative to the advantages of the stated reductions, as in C99 and C100; nothing is assumed about AES or HMAC. That the owner of the password opens every box is C100_opens, for each salt."
  },
  {
   "property": "C107",
   "status": "proved",
   "theorems": [
    "Verif.Props.CbcSpread.C107_stays",
    "Verif.Props.CbcSpread.C107_change",
    "Verif.Props.CbcSpread.C107_iv"
   ],
   "note": ""
  },
  {
   "property": "C108",
   "status": "proved",
   "theorems": [
    "Verif.Props.SecretIv.C108_blocks",
    "Verif.Props.SecretIv.C108_reveals",
    "Verif.Props.SecretIv.C108_key"
   ],
   "note": ""
  },
  {
   "property": "C109",
   "status": "proved",
   "theorems": [
    "Verif.Props.SourcePkcs7.C109_pad",
    "Verif.Props.SourcePkcs7.C109_unpad",
    "Verif.Props.SourcePkcs7.C109_roundtrip"
   ],
   "note": "The module is private; the crate uses block size 16 only."
  },
  {
   "property": "C11",
   "status": "proved",
   "theorems": [
    "Verif.Props.Pbkdf2.C11_too_long_key_repeats"
   ],
   "note": "the property records that the code does not reject too long keys"
  },
  {
   "property": "C110",
   "status": "proved",
   "theorems": [
    "Verif.Props.Guessing.C110_program",
    "Verif.Props.Guessing.C110_guesses",
    "Verif.Props.Guessing.C110_password",
    "Verif.Props.Guessing.C110_shortcut",
    "Verif.Props.Guessing.C110_attack",
    "Verif.Props.Guessing.C110_same_salt"
   ],
   "note": "HMAC is replaced by a random function in C110_guesses, C110_password, C110_shortcut, C110_attack and C110_same_salt: they are about the algorithm in the random oracle model, in which the attacker has no other way to use HMAC than to evaluate it. C110_program says that with HMAC itself in that place the experiment is the one with the keys from the program in the text. Evaluations are what is counted, not the time or the memory that they take. All keys are given at the beginning."
  },
  {
   "property": "C111",
   "status": "proved",
   "theorems": [
    "Verif.Props.GuessingScrypt.C111_program",
    "Verif.Props.GuessingScrypt.C111_guesses",
    "Verif.Props.GuessingScrypt.C111_password",
    "Verif.Props.GuessingScrypt.C111_shortcut",
    "Verif.Props.GuessingScrypt.C111_attack"
   ],
   "note": "HMAC and the Salsa20/8 core are replaced by random functions in C111_guesses, C111_password, C111_shortcut and C111_attack: they are about the algorithm in the random oracle model, in which the attacker has no other way to use the two than to evaluate them. C111_program says that with HMAC-SHA-256 and the core themselves in that place the experiment is the one with the keys from the program in the text. Evaluations are what is counted, not the memory that they take, which C112 and C113 are about. The core itself is not collision resistant (C15) and has symmetries (C50), of which a random function has none. All keys are given at the beginning."
  },
  {
   "property": "C112",
   "status": "proved",
   "theorems": [
    "Verif.Props.TableMemory.C112_program",
    "Verif.Props.TableMemory.C112_tradeoff",
    "Verif.Props.TableMemory.C112_octets",
    "Verif.Props.TableMemory.C112_strategy"
   ],
   "note": "scryptBlockMix is replaced by a random function on strings of 128*r octets in C112_tradeoff and C112_octets; C112_strategy holds for every function. C112_program says that with scryptBlockMix itself in that place the mixing is the one in the key from the program in the text. What is counted are evaluations of scryptBlockMix for one entry at a time; C113 is about the whole of the mixing."
  },
  {
   "property": "C113",
   "status": "proved",
   "theorems": [
    "Verif.Props.MemoryHard.C113_program",
    "Verif.Props.MemoryHard.C113_machine",
    "Verif.Props.MemoryHard.C113_octets",
    "Verif.Props.MemoryHard.C113_keeper"
   ],
   "note": "scryptBlockMix is replaced by a random function on strings of 128*r octets in C113_machine and C113_octets; the memory at the beginning does not depend on it. C113_keeper holds for every function, and C113_program says that with scryptBlockMix itself the results of that machine make the key derived by the program in the text. What is bounded is the number of steps; any number c of evaluations are made in a step, with c in the probabilities only. The memory is bounded at all times; C114 is about memory that is used for a short time only. The constant 16 is not the best possible."
  },
  {
   "property": "C114",
   "status": "proved",
   "theorems": [
    "Verif.Props.MemoryTime.C114_machine",
    "Verif.Props.MemoryTime.C114_octets",
    "Verif.Props.MemoryTime.C114_keeper",
    "Verif.Props.MemoryHard.C113_program"
   ],
   "note": "scryptBlockMix is replaced by a random function on strings of 128*r octets in C114_machine and C114_octets; the memory at the beginning does not depend on it. C114_keeper holds for every function, and C113_program says that with scryptBlockMix itself the results of that machine make the key derived by the program in the text. The constant 48 is not the best possible; for N up to 130 nothing is claimed."
  },
  {
   "property": "C115",
   "status": "proved",
   "theorems": [
    "Verif.Props.Multicollision.C115_many",
    "Verif.Props.Multicollision.C115_beside",
    "Verif.Props.Multicollision.searches_exist"
   ],
   "note": "How to search for one collision is not the subject; searches_exist says that there is something to be found from every hash value."
  },
  {
   "property": "C116",
   "status": "proved",
   "theorems": [
    "Verif.Props.KeySchedule.C116_key",
    "Verif.Props.KeySchedule.C116_each"
   ],
   "note": "The memory is that of the model, a list of words of 32 bits; C97 has the object of the program in the text."
  },
  {
   "property": "C117",
   "status": "proved",
   "theorems": [
    "Verif.Props.HmacExtend.C117_continues",
    "Verif.Props.HmacExtend.C117_collision",
    "Verif.Props.HmacExtend.pairs_exist"
   ],
   "note": "pairs_exist: for every key there are such messages. How many digests one has to ask for is not part of the claim; 2^128 is the usual figure for 256 bits."
  },
  {
   "property": "C118",
   "status": "proved",
   "theorems": [
    "Verif.Props.Trail.C118_sbox",
    "Verif.Props.Trail.C118_trail",
    "Verif.Props.Trail.C118_rounds",
    "Verif.Props.Trail.C118_program",
    "Verif.Props.Trail.C118_keys"
   ],
   "note": "C118_program: the lookups of the program text, of an object with any round keys. The round keys that init makes of a key are not independent, and nothing is claimed on the probability over keys; C118_keys says that the rounds are the same. Nor is it claimed that the last difference alone cannot be foretold: many predictions can end in the same difference."
  },
  {
   "property": "C119",
   "status": "proved",
   "theorems": [
    "Verif.Props.Linear.C119_sbox",
    "Verif.Props.Linear.C119_rounds",
    "Verif.Props.Linear.C119_returns",
    "Verif.Props.Linear.C119_program",
    "Verif.Props.Linear.C119_keys"
   ],
   "note": "C119_program: what the program text returns, for an object with any round keys (C119_returns: it does return). The block is fixed, so a function of its bits only turns the equation round. The round keys that init makes of a key are not independent, and nothing is claimed on the probability over keys; C119_keys says that the rounds are the same."
  },
  {
   "property": "C12",
   "status": "proved",
   "theorems": [
    "Verif.Props.Salsa20.C12_salsa20_correct",
    "Verif.Props.Salsa20.columnround_equations"
   ],
   "note": ""
  },
  {
   "property": "C120",
   "status": "proved",
   "theorems": [
    "Verif.Props.FixedPoint.C120_one",
    "Verif.Props.FixedPoint.C120_update",
    "Verif.Props.FixedPoint.C120_repeated"
   ],
   "note": "That the hash value of a message ever is the one that its next block leaves as it is, is not claimed and no such message is known; the objects of C120_update have any hash value."
  },
  {
   "property": "C121",
   "status": "proved",
   "theorems": [
    "Verif.Props.Even.C121_even",
    "Verif.Props.Even.C121_program",
    "Verif.Props.Even.C121_half",
    "Verif.Props.Even.C121_three"
   ],
   "note": "C121_even and C121_three: the model, objects after init. C121_program: the program text, objects with any round keys. It limits what C89 may assume of AES: it looks like a random permutation only as long as two blocks and more are left that were not asked for."
  },
  {
   "property": "C122",
   "status": "proved",
   "theorems": [
    "Verif.Props.Iterations.C122_related",
    "Verif.Props.Iterations.C122_test",
    "Verif.Props.Iterations.C122_cost"
   ],
   "note": "A warning for users, who must choose another salt for every count. C122_cost counts compressions with the copies of the models of C61."
  },
  {
   "property": "C123",
   "status": "proved",
   "theorems": [
    "Verif.Props.CbcMac.C123_iv",
    "Verif.Props.CbcMac.C123_join"
   ],
   "note": "A warning for users: CBC-MAC without a prefix-free encoding is forged from two known values."
  },
  {
   "property": "C124",
   "status": "proved",
   "theorems": [
    "Verif.Props.CbcPaste.C124_pasted",
    "Verif.Props.CbcPaste.C124_accepted"
   ],
   "note": "A warning for users: without a MAC (C99), ciphertexts can be cut and pasted. The example sends a message of two blocks twice."
  },
  {
   "property": "C125",
   "status": "proved",
   "theorems": [
    "Verif.Props.ShortTags.C125_forgery",
    "Verif.Props.ShortTags.C125_queries",
    "Verif.Props.ShortTags.C125_attempts",
    "Verif.Props.ShortTags.C125_search"
   ],
   "note": "C92 for digests that are cut. C125_queries bounds the queries of the distinguisher in C125_forgery."
  },
  {
   "property": "C126",
   "status": "proved",
   "theorems": [
    "Verif.Props.TwoKeys.C126_meet"
   ],
   "note": "A warning for users who want to double the length of the key. The work counted is the encrypted and decrypted blocks; the comparisons of the two tables and the memory for them are not counted."
  },
  {
   "property": "C127",
   "status": "proved",
   "theorems": [
    "Verif.Props.Chase.C127_found"
   ],
   "note": "For users who shorten digests. The bound is for the worst start; that 2^(4t) is usual is not stated. For t = 32 the theorem says that collisions exist."
  },
  {
   "property": "C128",
   "status": "proved",
   "theorems": [
    "Verif.Props.OnePart.C128_part"
   ],
   "note": "The procedure for one part is written next to the theorem, over the counted copy of HMac; work is counted in compressions."
  },
  {
   "property": "C129",
   "status": "proved",
   "theorems": [
    "Verif.Props.WhichError.C129_cipher",
    "Verif.Props.WhichError.C129_decipher",
    "Verif.Props.WhichError.C129_told_apart"
   ],
   "note": "The derived Debug and PartialEq are modelled in Model/Derived.lean. For large writes see C98."
  },
  {
   "property": "C13",
   "status": "proved",
   "theorems": [
    "Verif.Props.Salsa20.C13_panics_iff",
    "Verif.Props.Salsa20.C13_first_block_only"
   ],
   "note": ""
  },
  {
   "property": "C130",
   "status": "proved",
   "theorems": [
    "Verif.Props.Caught.C130_history",
    "Verif.Props.Caught.C130_cut",
    "Verif.Props.Caught.C130_lost",
    "Verif.Props.Caught.C130_stuck"
   ],
   "note": "With the growth of Vec in the standard library. Model/Caught.lean keeps the object where a panic leaves it; where no call panics it agrees with Model/Growing.lean (Proof/Caught.lean)."
  },
  {
   "property": "C131",
   "status": "proved",
   "theorems": [
    "Verif.Props.CaughtDecipher.C131_history",
    "Verif.Props.CaughtDecipher.C131_cut",
    "Verif.Props.CaughtDecipher.C131_dead"
   ],
   "note": "With the growth of Vec in the standard library. Model/Caught.lean keeps the object where a panic leaves it; where no call panics it agrees with Model/Growing.lean (Proof/Caught.lean)."
  },
  {
   "property": "C132",
   "status": "proved",
   "theorems": [
    "Verif.Props.CbcCut.C132_cut",
    "Verif.Props.CbcCut.C132_zero",
    "Verif.Props.CbcCut.C132_text"
   ],
   "note": "A consequence of C28 and of the exact account of Decipher on data that need not be whole blocks; the zero byte is the defect of C33."
  },
  {
   "property": "C133",
   "status": "proved",
   "theorems": [
    "Verif.Props.Rejected.C133_spoiled",
    "Verif.Props.Rejected.C133_fresh"
   ],
   "note": "A consequence of C36 (a failed flush changes nothing) that a user who goes on after an error meets."
  },
  {
   "property": "C134",
   "status": "proved",
   "theorems": [
    "Verif.Props.CacheLines.C134_lines",
    "Verif.Props.CacheLines.C134_bits",
    "Verif.Props.CacheLines.C134_key",
    "Verif.Props.CacheLines.C134_decrypt_key"
   ],
   "note": "About the traces of C74. Says what can be learned at least; nothing is claimed about what cannot be learned. The table is taken to begin at the start of a line."
  },
  {
   "property": "C135",
   "status": "proved",
   "theorems": [
    "Verif.Props.Stray.C135_shifted",
    "Verif.Props.Stray.C135_kept"
   ],
   "note": "Goes with C34 (false: an incomplete last block is not rejected) and says what becomes of that block."
  },
  {
   "property": "C136",
   "status": "proved",
   "theorems": [
    "Verif.Props.Branches.C136_bits",
    "Verif.Props.Branches.C136_key"
   ],
   "note": "About the tests in the source text; a compiler may do without some of them. Says what can be learned at least."
  },
  {
   "property": "C137",
   "status": "proved",
   "theorems": [
    "Verif.Props.Peek.C137_seen",
    "Verif.Props.Peek.C137_chance"
   ],
   "note": "The trial is an algorithm of Spec/ScryptPeek.lean. C137_chance takes HMAC and the core for random functions, as C111 does."
  },
  {
   "property": "C14",
   "status": "proved",
   "theorems": [
    "Verif.Props.Salsa20.C14_doubleround_permutation",
    "Verif.Props.Salsa20.C14_no_collapse"
   ],
   "note": ""
  },
  {
   "property": "C15",
   "status": "proved",
   "theorems": [
    "Verif.Props.Salsa20.C15_collision"
   ],
   "note": ""
  },
  {
   "property": "C16",
   "status": "proved",
   "theorems": [
    "Verif.Props.Scrypt.C16_scrypt_correct",
    "Verif.Props.Scrypt.C16_returns_iff"
   ],
   "note": ""
  },
  {
   "property": "C17",
   "status": "proved",
   "theorems": [
    "Verif.Props.Scrypt.C17_validation",
    "Verif.Props.Scrypt.C17_valid_no_error",
    "Verif.Props.Scrypt.C17_errors_exact"
   ],
   "note": ""
  },
  {
   "property": "C18",
   "status": "partial",
   "theorems": [
    "Verif.Props.Scrypt.C18_violated",
    "Verif.Props.Scrypt.C18_outside_accepted",
    "Verif.Props.Scrypt.C18_ranges_partial"
   ],
   "note": "The full statement is false of the code: C18_violated proves its negation, C18_outside_accepted generalises it. The part that holds is C18_ranges_partial."
  },
  {
   "property": "C19",
   "status": "proved",
   "theorems": [
    "Verif.Props.Scrypt.C19_integerify"
   ],
   "note": ""
  },
  {
   "property": "C20",
   "status": "proved",
   "theorems": [
    "Verif.Props.Scrypt.C20_block_mix",
    "Verif.Props.Scrypt.C20_ro_mix"
   ],
   "note": ""
  },
  {
   "property": "C21",
   "status": "proved",
   "theorems": [
    "Verif.Props.Scrypt.C21_overflow_panics",
    "Verif.Props.Scrypt.C21_wrap_to_zero",
    "Verif.Props.Scrypt.C21_wrap_fewer_lanes"
   ],
   "note": ""
  },
  {
   "property": "C22",
   "status": "proved",
   "theorems": [
    "Verif.Props.Aes.C22_aes_encrypt"
   ],
   "note": "All keys of the three sizes, all blocks, both targets; equality with Spec.Aes (FIPS-197)."
  },
  {
   "property": "C23",
   "status": "proved",
   "theorems": [
    "Verif.Props.Aes.C23_aes_decrypt"
   ],
   "note": "All keys of the three sizes, all blocks."
  },
  {
   "property": "C24",
   "status": "proved",
   "theorems": [
    "Verif.Props.Aes.C24_decrypt_encrypt",
    "Verif.Props.Aes.C24_encrypt_decrypt",
    "Verif.Props.Aes.C24_permutation"
   ],
   "note": "Both compositions are the identity."
  },
  {
   "property": "C25",
   "status": "proved",
   "theorems": [
    "Verif.Props.Aes.C25_init",
    "Verif.Props.Aes.C25_not_initialized",
    "Verif.Props.Aes.C26_history"
   ],
   "note": "Init contract for every key length and NotInitialized for every history."
  },
  {
   "property": "C26",
   "status": "proved",
   "theorems": [
    "Verif.Props.Aes.C26_history",
    "Verif.Props.Aes.C26_fresh"
   ],
   "note": "Induction over arbitrary call histories."
  },
  {
   "property": "C27",
   "status": "proved",
   "theorems": [
    "Verif.Props.AesPoly.C27_mul",
    "Verif.Props.AesPoly.C27_mul_byte",
    "Verif.Props.AesPoly.C27_sbox",
    "Verif.Props.AesPoly.C27_inv_sbox",
    "Verif.Props.AesPoly.C27_rcon",
    "Verif.Props.AesPoly.C27_words",
    "Verif.Props.AesPoly.gmul_poly",
    "Verif.Props.AesPoly.ginv_inverse"
   ],
   "note": "Products are stated with Mathlib polynomials over ZMod 2 modulo x^8+x^4+x^3+x+1, for every multiplier of a usize."
  },
  {
   "property": "C28",
   "status": "proved",
   "theorems": [
    "Verif.Props.Cbc.C28_cbc_encrypt"
   ],
   "note": "All keys, ivs, messages, fragmentations; equality with Spec.Cbc (SP 800-38A and RFC 5652)."
  },
  {
   "property": "C29",
   "status": "proved",
   "theorems": [
    "Verif.Props.Cbc.C29_lengths"
   ],
   "note": "All messages and fragmentations."
  },
  {
   "property": "C30",
   "status": "proved",
   "theorems": [
    "Verif.Props.Cbc.C30_roundtrip"
   ],
   "note": "All messages, both fragmentations."
  },
  {
   "property": "C31",
   "status": "proved",
   "theorems": [
    "Verif.Props.Cbc.C31_cipher_progress",
    "Verif.Props.Cbc.C31_decipher_progress"
   ],
   "note": "For every prefix of the writes, the exact bytes emitted, their number and the number of bytes held back."
  },
  {
   "property": "C32",
   "status": "proved",
   "theorems": [
    "Verif.Props.Cbc.C32_cbc_decrypt"
   ],
   "note": "All ciphertexts of whole blocks and all fragmentations, with the three results of flush characterised exactly."
  },
  {
   "property": "C33",
   "status": "partial",
   "theorems": [
    "Verif.Props.Cbc.C33_padding_partial",
    "Verif.Props.Cbc.C33_refuted"
   ],
   "note": "The property is false of the code: C33_refuted shows that data ending in a byte 0 is accepted and returned whole, for every key and iv. C33_padding_partial is the property without the bound 1 <= v."
  },
  {
   "property": "C34",
   "status": "partial",
   "theorems": [
    "Verif.Props.Cbc.C34_incomplete_partial",
    "Verif.Props.Cbc.C34_refuted"
   ],
   "note": "The property is false of the code: C34_refuted shows that a ciphertext followed by 1 to 15 bytes is accepted. C34_incomplete_partial is the property for data shorter than one block."
  },
  {
   "property": "C35",
   "status": "proved",
   "theorems": [
    "Verif.Props.CbcHistory.C35_cipher",
    "Verif.Props.CbcHistory.C35_decipher",
    "Verif.Props.CbcHistory.C35_cipher_tail",
    "Verif.Props.CbcHistory.C35_decipher_tail"
   ],
   "note": "All histories without a successful init, and what becomes of bytes written before it."
  },
  {
   "property": "C36",
   "status": "proved",
   "theorems": [
    "Verif.Props.CbcHistory.C36_failed_flush",
    "Verif.Props.CbcHistory.C36_successful_flush"
   ],
   "note": "All states and all continuations."
  },
  {
   "property": "C37",
   "status": "proved",
   "theorems": [
    "Verif.Props.Cbc.C37_message_sequences"
   ],
   "note": "Induction over the sequence of messages, all fragmentations on both sides."
  },
  {
   "property": "C38",
   "status": "proved",
   "theorems": [
    "Verif.Props.CbcHistory.C38_error_propagation",
    "Verif.Props.CbcMisuse.C38_flush"
   ],
   "note": "All ciphertexts, positions of the changed block, modifications and fragmentations."
  },
  {
   "property": "C39",
   "status": "proved",
   "theorems": [
    "Verif.Props.CbcHistory.C39_invalid",
    "Verif.Props.CbcHistory.C39_valid",
    "Verif.Props.CbcHistory.C39_cipher_rekey",
    "Verif.Props.CbcHistory.C39_decipher_rekey"
   ],
   "note": "All states for the effect of init; all messages and fragmentations for a change of key in the middle of a message."
  },
  {
   "property": "C40",
   "status": "proved",
   "theorems": [
    "Verif.Props.Pkcs7.C40_pad",
    "Verif.Props.Pkcs7.C40_zero",
    "Verif.Props.Pkcs7.C40_unpad",
    "Verif.Props.Pkcs7.C40_roundtrip",
    "Verif.Props.Pkcs7.C40_pad_unpad",
    "Verif.Props.Pkcs7.C40_256"
   ],
   "note": "Every block size from 1 to 255, every message, every fragmentation on both sides; block size 256 never round-trips; block size 0 panics. That 2 * block_size overflows for huge block sizes is not in this model of Pad::new; C109 is about the text, with the limit."
  },
  {
   "property": "C41",
   "status": "proved",
   "theorems": [
    "Verif.Props.Common.C41_sum",
    "Verif.Props.Common.C41_order"
   ],
   "note": "Every word width and every number of arguments."
  },
  {
   "property": "C42",
   "status": "proved",
   "theorems": [
    "Verif.Props.Common.C42_aes",
    "Verif.Props.Common.C42_unpad",
    "Verif.Props.Common.C42_decipher",
    "Verif.Props.Common.C42_scrypt"
   ],
   "note": "All pairs of error values of the four error types."
  },
  {
   "property": "C43",
   "status": "proved",
   "theorems": [
    "Verif.Props.CbcHistory.C43_cipher",
    "Verif.Props.CbcHistory.C43_decipher",
    "Verif.Props.Growing.C98_cipher_each",
    "Verif.Props.Growing.C98_decipher_each"
   ],
   "note": "Induction over arbitrary histories; also gives the exact answers, as those of the abstract machines in Spec.CbcMachine. The model of C43_cipher and C43_decipher has vectors without capacities; the last two theorems are about vectors that grow, and have the limit."
  },
  {
   "property": "C44",
   "status": "proved",
   "theorems": [
    "Verif.Props.Cbc.C44_message",
    "Verif.Props.Cbc.C44_iv"
   ],
   "note": "All pairs of messages (also of different lengths) and ivs."
  },
  {
   "property": "C45",
   "status": "proved",
   "theorems": [
    "Verif.Props.Hmac.C45_history",
    "Verif.Props.Hmac.C45_second_digest_differs"
   ],
   "note": ""
  },
  {
   "property": "C46",
   "status": "proved",
   "theorems": [
    "Verif.Props.Password.C46_pbkdf2_zero_extended",
    "Verif.Props.Password.C46_pbkdf2_long",
    "Verif.Props.Password.C46_scrypt_zero_extended",
    "Verif.Props.Password.C46_scrypt_long"
   ],
   "note": "Equality of whole outcomes, panics and errors included."
  },
  {
   "property": "C47",
   "status": "proved",
   "theorems": [
    "Verif.Props.ScryptShape.C47_buffer_contents_irrelevant",
    "Verif.Props.ScryptShape.C47_prefix",
    "Verif.Props.ScryptShape.C47_empty"
   ],
   "note": "Buffers within isize::MAX, as every Rust slice is."
  },
  {
   "property": "C48",
   "status": "proved",
   "theorems": [
    "Verif.Props.Sha256.C48_length_extension",
    "Verif.Props.Sha256.C48_collisions_extend"
   ],
   "note": "Messages within the bit counter of the target."
  },
  {
   "property": "C49",
   "status": "proved",
   "theorems": [
    "Verif.Props.Sha256.C49_collision_reduction"
   ],
   "note": "The collision found lies in the two hash computations at hand; a mere existence claim would hold trivially."
  },
  {
   "property": "C50",
   "status": "proved",
   "theorems": [
    "Verif.Props.Salsa20.C50_diagonal_symmetry",
    "Verif.Props.Salsa20.C50_symmetric_inputs",
    "Verif.Props.Salsa20.C50_zero",
    "Verif.Props.Salsa20.C50_no_rounds"
   ],
   "note": ""
  },
  {
   "property": "C51",
   "status": "proved",
   "theorems": [
    "Verif.Props.CbcMisuse.C51_iv_reuse"
   ],
   "note": ""
  },
  {
   "property": "C52",
   "status": "proved",
   "theorems": [
    "Verif.Props.CbcMisuse.C52_equal_blocks"
   ],
   "note": ""
  },
  {
   "property": "C53",
   "status": "proved",
   "theorems": [
    "Verif.Props.CbcMisuse.C53_other_iv"
   ],
   "note": ""
  },
  {
   "property": "C54",
   "status": "proved",
   "theorems": [
    "Verif.Props.CbcSplit.C54_cipher",
    "Verif.Props.CbcSplit.C54_decipher"
   ],
   "note": ""
  },
  {
   "property": "C55",
   "status": "proved",
   "theorems": [
    "Verif.Props.CbcSplit.C55_cipher",
    "Verif.Props.CbcSplit.C55_decipher"
   ],
   "note": "A failed Decipher::flush is C36."
  },
  {
   "property": "C56",
   "status": "proved",
   "theorems": [
    "Verif.Props.CbcMisuse.C56_missing_flush",
    "Verif.Props.CbcMisuse.C56_cipher"
   ],
   "note": ""
  },
  {
   "property": "C57",
   "status": "proved",
   "theorems": [
    "Verif.Props.CbcMisuse.C57_padding_oracle"
   ],
   "note": "A last byte 0 counts as acceptable, see C33."
  },
  {
   "property": "C58",
   "status": "proved",
   "theorems": [
    "Verif.Props.Hex.C58_hex",
    "Verif.Props.Hex.C58_panic",
    "Verif.Props.Hex.C58_odd"
   ],
   "note": "The digits are listed in Spec/Hex; the helper is a cfg(test) function."
  },
  {
   "property": "C59",
   "status": "proved",
   "theorems": [
    "Verif.Props.Platform.C59_sha256",
    "Verif.Props.Platform.C59_hmac",
    "Verif.Props.Platform.C59_pbkdf2",
    "Verif.Props.Platform.C59_scrypt",
    "Verif.Props.Platform.C59_converse_fails"
   ],
   "note": "Monotonicity of every modelled operation in the target (Proof/Mono)."
  },
  {
   "property": "C60",
   "status": "proved",
   "theorems": [
    "Verif.Props.Platform.C60_aes",
    "Verif.Props.Platform.C60_cipher",
    "Verif.Props.Platform.C60_decipher",
    "Verif.Props.GrowingSame.C98_cipher_model",
    "Verif.Props.GrowingSame.C98_decipher_model"
   ],
   "note": "Monotonicity together with the absence of panics (C26, C43). The last two theorems carry this over to vectors that grow, within the limit."
  },
  {
   "property": "C61",
   "status": "proved",
   "theorems": [
    "Verif.Props.Work.C61_sha256",
    "Verif.Props.Work.C61_pbkdf2",
    "Verif.Props.Work.C61_scrypt"
   ],
   "note": "Counted copies of the models (Model/Counted); each theorem also states that erasing the count gives the model."
  },
  {
   "property": "C62",
   "status": "proved",
   "theorems": [
    "Verif.Props.Source.C62_source_sha256",
    "Verif.Props.Source.C62_source_panics",
    "Verif.Props.Source.C62_history"
   ],
   "note": "Program text translated by tools/rust2lean.py into Verif/Source/Gen and evaluated by Verif/Source/Semantics. "
  },
  {
   "property": "C63",
   "status": "proved",
   "theorems": [
    "Verif.Props.Source.C63_source_hmac",
    "Verif.Props.Source.C63_history"
   ],
   "note": "Program text translated by tools/rust2lean.py into Verif/Source/Gen and evaluated by Verif/Source/Semantics. "
  },
  {
   "property": "C64",
   "status": "proved",
   "theorems": [
    "Verif.Props.Source.C64_source_pbkdf2",
    "Verif.Props.Source.C64_source_panics"
   ],
   "note": "Program text translated by tools/rust2lean.py into Verif/Source/Gen and evaluated by Verif/Source/Semantics. "
  },
  {
   "property": "C65",
   "status": "proved",
   "theorems": [
    "Verif.Props.Source.C65_source_salsa20",
    "Verif.Props.Source.C65_source_panics"
   ],
   "note": "Program text translated by tools/rust2lean.py into Verif/Source/Gen and evaluated by Verif/Source/Semantics. "
  },
  {
   "property": "C66",
   "status": "proved",
   "theorems": [
    "Verif.Props.Source.C66_source_scrypt",
    "Verif.Props.Source.C66_source_errors",
    "Verif.Props.Source.C66_source_returns_iff"
   ],
   "note": "Program text translated by tools/rust2lean.py into Verif/Source/Gen and evaluated by Verif/Source/Semantics. "
  },
  {
   "property": "C67",
   "status": "proved",
   "theorems": [
    "Verif.Props.Source.C67_source_aes",
    "Verif.Props.Source.C67_source_default"
   ],
   "note": "Program text translated by tools/rust2lean.py into Verif/Source/Gen and evaluated by Verif/Source/Semantics. "
  },
  {
   "property": "C68",
   "status": "proved",
   "theorems": [
    "Verif.Props.Source.C68_source_cipher",
    "Verif.Props.Source.C68_source_decipher"
   ],
   "note": "Program text translated by tools/rust2lean.py into Verif/Source/Gen and evaluated by Verif/Source/Semantics. "
  },
  {
   "property": "C69",
   "status": "proved",
   "theorems": [
    "Verif.Props.Source.C69_source_encrypt",
    "Verif.Props.Source.C69_source_round_trip"
   ],
   "note": "Program text translated by tools/rust2lean.py into Verif/Source/Gen and evaluated by Verif/Source/Semantics. "
  },
  {
   "property": "C70",
   "status": "proved",
   "theorems": [
    "Verif.Props.Source.C70_sha256",
    "Verif.Props.Source.C70_hmac",
    "Verif.Props.Source.C70_pbkdf2",
    "Verif.Props.Source.C70_salsa20",
    "Verif.Props.Source.C70_scrypt",
    "Verif.Props.Source.C70_aes",
    "Verif.Props.Source.C70_cipher",
    "Verif.Props.Source.C70_decipher"
   ],
   "note": "Program text translated by tools/rust2lean.py into Verif/Source/Gen and evaluated by Verif/Source/Semantics. "
  },
  {
   "property": "C71",
   "status": "proved",
   "theorems": [
    "Verif.Props.Source.C71_messages"
   ],
   "note": "Program text translated by tools/rust2lean.py into Verif/Source/Gen and evaluated by Verif/Source/Semantics. The scrypt texts say 'larger than 1' although 1 is accepted; C17 and C66 state what is rejected."
  },
  {
   "property": "C72",
   "status": "proved",
   "theorems": [
    "Verif.Props.ConstantTime.C72_call",
    "Verif.Props.ConstantTime.C72_session",
    "Verif.Props.ConstantTime.C72_sha256",
    "Verif.Props.ConstantTime.C72_hmac",
    "Verif.Props.ConstantTime.C72_pbkdf2",
    "Verif.Props.ConstantTime.C72_salsa20"
   ],
   "note": "Source-level observer (Verif/Source/Leak.lean): says nothing about what a compiler makes of the code or about instruction timing. "
  },
  {
   "property": "C73",
   "status": "proved",
   "theorems": [
    "Verif.Props.ConstantTime.C73_only_leaks"
   ],
   "note": "Source-level observer (Verif/Source/Leak.lean): says nothing about what a compiler makes of the code or about instruction timing. The hypotheses are met by the program `patched`."
  },
  {
   "property": "C74",
   "status": "proved",
   "theorems": [
    "Verif.Props.SideChannel.C74_aes",
    "Verif.Props.SideChannel.C74_cipher",
    "Verif.Props.SideChannel.C74_decipher"
   ],
   "note": "Source-level observer (Verif/Source/Leak.lean): says nothing about what a compiler makes of the code or about instruction timing. "
  },
  {
   "property": "C75",
   "status": "proved",
   "theorems": [
    "Verif.Props.PaddingOracle.C75_padding"
   ],
   "note": "Source-level observer (Verif/Source/Leak.lean): says nothing about what a compiler makes of the code or about instruction timing. Writes are assumed shorter than isize::MAX - 16, as in C68."
  },
  {
   "property": "C76",
   "status": "proved",
   "theorems": [
    "Verif.Props.SideChannelScrypt.C76_scrypt",
    "Verif.Props.SideChannelScrypt.C76_entries",
    "Verif.Props.SideChannelScrypt.C76_leaks"
   ],
   "note": "Source-level observer (Verif/Source/Leak.lean): says nothing about what a compiler makes of the code or about instruction timing. Hypotheses on memory and lengths as in C16, except that none is needed for the last PBKDF2. "
  },
  {
   "property": "C77",
   "status": "proved",
   "theorems": [
    "Verif.Props.SideChannel.C77",
    "Verif.Props.SideChannel.C77_decipher"
   ],
   "note": "Source-level observer (Verif/Source/Leak.lean): says nothing about what a compiler makes of the code. Every single write is at most isize::MAX - 16 bytes long."
  },
  {
   "property": "C78",
   "status": "proved",
   "theorems": [
    "Verif.Props.Attack.C78_decrypt"
   ],
   "note": "A limit of what CBC with a visible padding error can give, not a bug of one function; the strategy takes pad byte 0 (C33) into account. Speaks about the generated source. Every single write is at most isize::MAX - 16 bytes long."
  },
  {
   "property": "C79",
   "status": "proved",
   "theorems": [
    "Verif.Props.Attack.C79_forge"
   ],
   "note": "A limit of what CBC with a visible padding error can give, not a bug of one function; the strategy takes pad byte 0 (C33) into account. Speaks about the generated source."
  },
  {
   "property": "C80",
   "status": "proved",
   "theorems": [
    "Verif.Props.Guess.C80_guess"
   ],
   "note": "Speaks about the generated source. A consequence of chaining the initialization vector from call to call (C37). Every single write is at most isize::MAX - 16 bytes long."
  },
  {
   "property": "C81",
   "status": "proved",
   "theorems": [
    "Verif.Props.AfterPanic.C81_sha256",
    "Verif.Props.AfterPanic.C81_hmac",
    "Verif.Props.AfterPanic.C81_sha256_stays_broken",
    "Verif.Props.AfterPanic.C81_sha256_right",
    "Verif.Props.AfterPanic.C81_hmac_stays_broken",
    "Verif.Props.AfterPanic.C81_hmac_right",
    "Verif.Props.AfterPanic.C81_case"
   ],
   "note": "Speaks about the generated source, evaluated by Source/Unwind.lean, which keeps the variables when a panic happens and agrees with Semantics.lean everywhere else (callU_erase). C81_case is a history that panics and goes on."
  },
  {
   "property": "C82",
   "status": "proved",
   "theorems": [
    "Verif.Props.Untouched.C82_pbkdf2",
    "Verif.Props.Untouched.C82_pbkdf2_all_or_nothing",
    "Verif.Props.Untouched.C82_scrypt",
    "Verif.Props.Untouched.C82_scrypt_filled",
    "Verif.Props.Untouched.C82_pbkdf2_case",
    "Verif.Props.Untouched.C82_scrypt_case"
   ],
   "note": "Speaks about the generated source, evaluated by Source/Unwind.lean. Panics of the memory allocator are those of the model: a size above isize::MAX; the abort on exhausted memory ends the process and leaves no buffer to look at."
  },
  {
   "property": "C83",
   "status": "proved",
   "theorems": [
    "Verif.Props.Untouched.C83_short_input",
    "Verif.Props.Untouched.C83_short_output"
   ],
   "note": "Speaks about the generated source, evaluated by Source/Unwind.lean. By C65 these are the only panics."
  },
  {
   "property": "C84",
   "status": "proved",
   "theorems": [
    "Verif.Props.Resume.C84_cipher",
    "Verif.Props.Resume.C84_decipher",
    "Verif.Props.Resume.C84_random_access"
   ],
   "note": "Speaks about the generated source."
  },
  {
   "property": "C85",
   "status": "proved",
   "theorems": [
    "Verif.Props.Interleave.C85_alone",
    "Verif.Props.Interleave.C85_sessions",
    "Verif.Props.Interleave.C85_messages"
   ],
   "note": "Speaks about the generated source, evaluated by Source/Unwind.lean. The crate has no statics; the translator stops at a `static` or `unsafe`, so this is a claim about the values the functions are given. Threads are modelled by the orders of whole calls: a call holds its object by `&mut` and reads nothing else but constants."
  },
  {
   "property": "C86",
   "status": "proved",
   "theorems": [
    "Verif.Props.FromText.C86_text",
    "Verif.Props.FromText.C86_sha256",
    "Verif.Props.FromText.C86_hmac",
    "Verif.Props.FromText.C86_pbkdf2",
    "Verif.Props.FromText.C86_salsa20",
    "Verif.Props.FromText.C86_scrypt",
    "Verif.Props.FromText.C86_aes",
    "Verif.Props.FromText.C86_encrypt",
    "Verif.Props.FromText.C86_decrypt"
   ],
   "note": "The front end (Verif/Text: Lex, Parse, Elab, Front) is written in Lean and evaluated by the kernel on the text in Verif/Text/Files.lean, a copy of /repo/src made by tools/text2lean.py. With it tools/rust2lean.py, which generated `crate`, is not trusted. That the front end reads Rust as the compiler does is a matter of definition."
  },
  {
   "property": "C87",
   "status": "proved",
   "theorems": [
    "Verif.Props.ModelText.C87_sha256",
    "Verif.Props.ModelText.C87_hmac",
    "Verif.Props.ModelText.C87_pbkdf2",
    "Verif.Props.ModelText.C87_salsa20",
    "Verif.Props.ModelText.C87_scrypt",
    "Verif.Props.ModelText.C87_aes",
    "Verif.Props.ModelText.C87_cipher",
    "Verif.Props.ModelText.C87_decipher"
   ],
   "note": "With this the hand-written model need not be trusted: what C01-C61 say of results of calls holds of the program read from the text."
  },
  {
   "property": "C88",
   "status": "proved",
   "theorems": [
    "Verif.Props.TextDefects.C88_scrypt",
    "Verif.Props.TextDefects.C88_padding",
    "Verif.Props.TextDefects.C88_incomplete"
   ],
   "note": "These are the refutations of C18, C33 and C34 for the program read from the text."
  },
  {
   "property": "C89",
   "status": "proved",
   "theorems": [
    "Verif.Props.Confidential.C89_random",
    "Verif.Props.Confidential.C89_left_or_right",
    "Verif.Props.Confidential.C89_queries",
    "Verif.Props.Confidential.C89_same_cipher",
    "Verif.Props.Confidential.C89_switch",
    "Verif.Props.Confidential.C89_permutation",
    "Verif.Props.Confidential.C89_left_or_right_permutation",
    "Verif.Props.Confidential.C89_birthday"
   ],
   "note": "Attackers, games and the reduction are defined in Spec/Games.lean; the program is the one read from the text (C86). That AES itself looks random is not claimed: the advantage against AES stays in the bound."
  },
  {
   "property": "C90",
   "status": "proved",
   "theorems": [
    "Verif.Props.HmacCollision.C90_collision",
    "Verif.Props.HmacCollision.C90_keys"
   ],
   "note": "`CollisionIn` (Spec/Sha256.lean) says that two different inputs of the compression function that occur in the two computations have the same output."
  },
  {
   "property": "C91",
   "status": "proved",
   "theorems": [
    "Verif.Props.DerivedKeys.C91_random",
    "Verif.Props.DerivedKeys.C91_queries",
    "Verif.Props.DerivedKeys.C91_same_salt"
   ],
   "note": "Attackers, games and the reduction are defined in Spec/KeyGames.lean; the program is the one read from the text (C86). That HMAC looks random is not claimed: the advantage stays in the bound. Salts may have any size, also 28 bytes, where a salt with its block number has the size of an iterated value."
  },
  {
   "property": "C92",
   "status": "proved",
   "theorems": [
    "Verif.Props.Forgery.C92_forgery",
    "Verif.Props.Forgery.C92_queries",
    "Verif.Props.Forgery.C92_replay",
    "Verif.Props.Forgery.C92_attempts"
   ],
   "note": "Forgers, probers and games are defined in Spec/KeyGames.lean; the program is the one read from the text (C86). C92_forgery is for one attempt; C92_attempts is for up to v attempts, mixed with questions, each answered with right or wrong. That HMAC looks random is not claimed: the advantage stays in the bound."
  },
  {
   "property": "C93",
   "status": "proved",
   "theorems": [
    "Verif.Props.ScryptKeys.C93_random",
    "Verif.Props.ScryptKeys.C93_sizes",
    "Verif.Props.ScryptKeys.C93_one",
    "Verif.Props.ScryptKeys.C93_queries"
   ],
   "note": "Attackers, games and the reduction are defined in Spec/ScryptGames.lean; the program is the one read from the text (C86). Nothing is claimed about how evenly scrypt's mixing function distributes its values: the largest probability stays in the bound."
  },
  {
   "property": "C94",
   "status": "proved",
   "theorems": [
    "Verif.Props.Garbage.C94_accepted",
    "Verif.Props.Garbage.C94_padded"
   ],
   "note": "The program is the one read from the text (C86). C94_accepted is the exact probability; C94_padded is the one PKCS#7 would give."
  },
  {
   "property": "C95",
   "status": "proved",
   "theorems": [
    "Verif.Props.HmacRandom.C95_program",
    "Verif.Props.HmacRandom.C95_hmac",
    "Verif.Props.HmacRandom.C95_questions",
    "Verif.Props.HmacRandom.C95_loss",
    "Verif.Props.HmacRandom.C95_figures",
    "Verif.Props.HmacRandom.C95_forgery",
    "Verif.Props.HmacRandom.C95_keys",
    "Verif.Props.HmacRandom.C95_scrypt"
   ],
   "note": "Distinguishers and reductions are defined in Spec/PrfGames.lean; the program is the one read from the text (C86). That the compression function looks random is not claimed (nobody can prove it): its advantages stay in the bound."
  },
  {
   "property": "C96",
   "status": "proved",
   "theorems": [
    "Verif.Props.SourceWork.C96_sha256",
    "Verif.Props.SourceWork.C96_hmac",
    "Verif.Props.SourceWork.C96_pbkdf2",
    "Verif.Props.SourceWork.C96_scrypt",
    "Verif.Props.SourceWork.C96_scrypt_hashing",
    "Verif.Props.SourceWork.C96_encrypt",
    "Verif.Props.SourceWork.C96_decrypt",
    "Verif.Props.SourceWork.C96_cipher",
    "Verif.Props.SourceWork.C96_decipher"
   ],
   "note": "The same counts as C61, but counted in the evaluation of the program read from the text (C86), with no counter in a copy of the model. For scrypt in a release build 128 * r * p must not wrap (C21)."
  },
  {
   "property": "C97",
   "status": "proved",
   "theorems": [
    "Verif.Props.Kept.C97_sha256",
    "Verif.Props.Kept.C97_hmac",
    "Verif.Props.Kept.C97_aes",
    "Verif.Props.Kept.C97_aes_keeps",
    "Verif.Props.Kept.C97_cipher",
    "Verif.Props.Kept.C97_cipher_keeps",
    "Verif.Props.Kept.C97_cipher_flushed",
    "Verif.Props.Kept.C97_decipher",
    "Verif.Props.Kept.C97_decipher_keeps",
    "Verif.Props.Kept.C97_decipher_flushed",
    "Verif.Props.Kept.C97_decipher_same"
   ],
   "note": "About the values of the objects, as in the program read from the text (C86). What an allocator or a stack frame still contains after a value was dropped or overwritten is not modelled, nor is the capacity of a Vec."
  },
  {
   "property": "C98",
   "status": "proved",
   "theorems": [
    "Verif.Props.Growing.C98_cipher",
    "Verif.Props.Growing.C98_cipher_each",
    "Verif.Props.Growing.C98_cipher_exact",
    "Verif.Props.Growing.C98_cipher_only",
    "Verif.Props.Growing.C98_cipher_room",
    "Verif.Props.Growing.C98_decipher",
    "Verif.Props.Growing.C98_decipher_each",
    "Verif.Props.Growing.C98_decipher_exact",
    "Verif.Props.Growing.C98_decipher_only",
    "Verif.Props.Growing.C98_decipher_room",
    "Verif.Props.Growing.C98_scrypt",
    "Verif.Props.Growing.C98_scrypt_only",
    "Verif.Props.Growing.C98_scrypt_exact",
    "Verif.Props.GrowingSame.C98_cipher_model",
    "Verif.Props.GrowingSame.C98_decipher_model"
   ],
   "note": "About a copy of the hand-written model in which every vector has a capacity. How the standard library grows vectors (double, at least 8, panic over isize::MAX) and what size hint the flattened iterator of scrypt gives are stated from knowledge of that library, which is not in /repo; C98_*_only, C98_cipher, C98_decipher and C98_scrypt hold for any policy that reserves enough and at most double."
  },
  {
   "property": "C99",
   "status": "proved",
   "theorems": [
    "Verif.Props.Sealed.C99_opens",
    "Verif.Props.Sealed.C99_sealed",
    "Verif.Props.Sealed.C99_iv"
   ],
   "note": "A reduction, like C89 and C92, on which it builds: that AES and HMAC-SHA256 cannot be told from random functions is not proved (C95 reduces the latter to the compression function). Comparing tags in constant time is left to the caller: the crate has no function for it."
  }
 ]
}