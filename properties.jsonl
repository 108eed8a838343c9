{"id": "C01", "title": "SHA256 computes FIPS 180-4 SHA-256", "statement": "Create SHA256::new(), feed a message through any number of update() calls, call digest() once: the 32 bytes returned are the FIPS 180-4 / RFC 6234 SHA-256 hash of the concatenated input, and no call panics, whenever the bit length of the message fits in a usize (8*len < 2^32 on 32-bit targets, < 2^64 on 64-bit targets), with or without overflow checks.", "quantifier": "every message, every way of cutting it into update() calls (including empty ones), both pointer widths, debug and release arithmetic", "why_tests_cant": "Messages are unbounded and each residue of the length mod 64 takes a different padding path; test vectors cover a handful of lengths.", "anchors": ["src/sha256.rs: SHA256::new, update, digest, process_block, fill_block, write_u64_be"]}
{"id": "C02", "title": "update() is insensitive to chunking", "statement": "Two histories of update() calls on the same SHA256 instance that deliver the same bytes in the same order leave the instance in exactly the same state (or both panic), hence give the same results to every later call, from any state of the instance and without any length limit.", "quantifier": "every instance state (including states after digest()), every two fragmentations of the same byte string, every target", "why_tests_cant": "The number of fragmentations is exponential in the length and the state space is unbounded.", "anchors": ["src/sha256.rs: SHA256::update"]}
{"id": "C03", "title": "SHA256 length limit is exact", "statement": "After feeding a message of len bytes, digest() panics exactly when overflow checks are on and 8*len does not fit in usize; with overflow checks off it never panics and returns the hash computed with the length field (8*len) mod 2^usize_bits instead of 8*len. On 64-bit targets every message RFC 6234 allows (fewer than 2^64 bits) is hashed correctly; on 32-bit targets the limit is 2^29 bytes.", "quantifier": "every message length, both widths, checks on and off", "why_tests_cant": "The boundary lies at 2^29 or 2^61 bytes, out of reach for tests.", "anchors": ["src/sha256.rs: SHA256::digest (self.length * 8), SHA256::update (self.length += 1)"]}
{"id": "C04", "title": "SHA256 instance history semantics: digest() does not reset", "statement": "For every history of update() and digest() calls on one SHA256 instance, every returned digest is the one predicted by a three-field abstract machine (chaining value, pending bytes, total length) in which digest() absorbs the padding and does not restore the initial state. In particular a second digest() is not the hash of the message and can differ from the first.", "quantifier": "every finite sequence of update and digest calls", "why_tests_cant": "Histories are unbounded; unit tests call digest exactly once.", "anchors": ["src/sha256.rs: SHA256::update, SHA256::digest"]}
{"id": "C05", "title": "SHA-256 constants are the FIPS ones", "statement": "The 64 round constants and 8 initial words used by the hash are the first 32 bits of the fractional parts of the cube roots (square roots) of the first 64 (8) primes.", "quantifier": "all 64 + 8 table entries", "why_tests_cant": "A single wrong table entry is only detected by tests if all later words are checked; the property ties the table to its definition instead of to another copy of the table.", "anchors": ["src/sha256.rs: K, H"]}
{"id": "C06", "title": "HMac computes RFC 2104 HMAC-SHA256", "statement": "HMac::new(key), any sequence of update() calls, one digest(): the result is SHA256((K0 xor opad) || SHA256((K0 xor ipad) || message)) where K0 is the key (hashed first if longer than 64 bytes) zero-padded to 64 bytes; no panic as long as the bit lengths fit in usize.", "quantifier": "every key of every length, every message, every fragmentation, every target", "why_tests_cant": "Keys and messages are unbounded; boundary lengths 63/64/65 interact with hash block boundaries.", "anchors": ["src/hmac.rs: HMac::new, update, digest"]}
{"id": "C07", "title": "HMac key normalisation", "statement": "A key of at most 64 bytes and the same key extended with zero bytes up to at most 64 bytes give identical MACs for every message, and a key longer than 64 bytes gives the same MACs as its 32-byte SHA-256 hash. Conversely, two keys of exactly 64 bytes that differ lead to different keyed inner blocks.", "quantifier": "every key, every message", "why_tests_cant": "Quantifies over all keys and messages.", "anchors": ["src/hmac.rs: HMac::new"]}
{"id": "C08", "title": "pbkdf2_sha256 computes RFC 2898 PBKDF2-HMAC-SHA256", "statement": "For every password, salt, iteration count c >= 1 and output buffer of at most (2^32-1)*32 bytes, pbkdf2_sha256 fills the buffer with the first out.len() bytes of T_1 || T_2 || ..., T_i = U_1 xor ... xor U_c, U_1 = HMAC(P, S || INT(i)), U_j = HMAC(P, U_{j-1}), and does not panic (input bit lengths fitting in usize).", "quantifier": "every password, salt, iteration count and output length", "why_tests_cant": "Unbounded inputs, iteration counts and output lengths; the two vectors only use 64-byte outputs.", "anchors": ["src/pbkdf2.rs: pbkdf2_sha256"]}
{"id": "C09", "title": "pbkdf2_sha256 output shape and prefix consistency", "statement": "pbkdf2_sha256 overwrites every byte of the output buffer and no other, the result does not depend on the previous contents of the buffer, and the result for a shorter buffer is a prefix of the result for a longer one.", "quantifier": "every input, every pair of output lengths, every prior buffer content", "why_tests_cant": "Requires all output lengths, in particular ones that are not multiples of 32.", "anchors": ["src/pbkdf2.rs: pbkdf2_sha256 (copy_from_slice at 108-111)"]}
{"id": "C10", "title": "pbkdf2_sha256 with zero iterations", "statement": "An iteration count of 0 is accepted and gives the same output as an iteration count of 1.", "quantifier": "every password, salt, output length", "why_tests_cant": "Quantifies over all inputs.", "anchors": ["src/pbkdf2.rs: pbkdf2_sha256 (for _j in 2..=c)"]}
{"id": "C11", "title": "pbkdf2_sha256 derived-key-too-long behaviour", "statement": "RFC 2898 requires dkLen > (2^32-1)*32 to be rejected. The code does not reject it: the 32-bit block index wraps, so output block i+2^32 repeats output block i.", "quantifier": "every password, salt, c, and every output length", "why_tests_cant": "Needs outputs above 128 GiB.", "anchors": ["src/pbkdf2.rs: pbkdf2_sha256 (step 1 skipped at 41-42, ctr at 87)"]}
{"id": "C12", "title": "salsa20 computes the Salsa20 core with the given number of double rounds", "statement": "For every 64-byte input and every number of double rounds, salsa20 writes littleendian^-1(x_i + z_i), z = doubleround^rounds(x), as in Bernstein's specification.", "quantifier": "every 64-byte input and every rounds value", "why_tests_cant": "2^512 inputs and unbounded rounds.", "anchors": ["src/salsa20.rs: salsa20, doubleround, rowround, columnround, quarterround, littleendian, littleendian_inv, rotl"]}
{"id": "C13", "title": "salsa20 buffer contract", "statement": "salsa20 panics exactly when the input or the output buffer is shorter than 64 bytes. Otherwise it reads only the first 64 bytes of the input and writes only the first 64 bytes of the output, whatever the lengths (longer multiples of 64 are not processed further, in contrast with the documentation's suggestion), and the written bytes do not depend on the previous contents of the output.", "quantifier": "every pair of buffers of any lengths, every rounds", "why_tests_cant": "All buffer lengths and contents.", "anchors": ["src/salsa20.rs: salsa20 (140-207)"]}
{"id": "C14", "title": "The Salsa20 double round is a permutation", "statement": "Before the final feed-forward addition, the double-round transformation is a bijection on 16-word states, so no two inputs collapse in the round iteration.", "quantifier": "all pairs of 512-bit states, any number of rounds", "why_tests_cant": "2^512 states.", "anchors": ["src/salsa20.rs: doubleround, rowround, columnround, quarterround"]}
{"id": "C15", "title": "The Salsa20 core is not collision resistant", "statement": "Flipping the most significant bit of all sixteen input words never changes the output of salsa20, for every input and number of rounds; hence the function must not be used as a hash.", "quantifier": "every 64-byte input, every rounds value", "why_tests_cant": "Universal over 2^512 inputs.", "anchors": ["src/salsa20.rs: salsa20"]}
{"id": "C16", "title": "Scrypt::derive computes RFC 7914 scrypt", "statement": "For all r >= 1, N a power of two, p >= 1 whose memory sizes fit the address space, every passphrase, salt and output buffer, derive returns Ok and fills out with scrypt(P, S, N, r, p, dkLen) as defined by the RFC (PBKDF2, ROMix per block, PBKDF2).", "quantifier": "every passphrase, salt, valid parameter triple and output length", "why_tests_cant": "Four vectors in the suite; parameters and inputs are unbounded.", "anchors": ["src/scrypt.rs: Scrypt::derive, ro_mix, block_mix, integerify, block_xor"]}
{"id": "C17", "title": "Scrypt parameter validation is exact and side-effect free", "statement": "derive returns RIsTooSmall iff r = 0; otherwise NIsTooSmall iff n = 0; otherwise NIsNotAPowerOfTwo iff n is not a power of two; otherwise PIsTooSmall iff p = 0; otherwise it returns no error. When an error is returned the output buffer is untouched.", "quantifier": "every (r, n, p), passphrase, salt, output buffer", "why_tests_cant": "All usize triples.", "anchors": ["src/scrypt.rs: Scrypt::derive (230-244), ScryptError"]}
{"id": "C18", "title": "Scrypt enforces its documented parameter ranges", "statement": "Documentation and RFC require N > 1, N < 2^(128*r/8) and p <= (2^32-1)*32/(128*r), so derive should reject anything else.", "quantifier": "every (r, n, p)", "why_tests_cant": "All usize triples.", "anchors": ["src/scrypt.rs: Scrypt::new docs (91-102), Scrypt::derive (230-244)"]}
{"id": "C19", "title": "64-bit Integerify is enough", "statement": "Reading only 8 bytes of the last block and truncating to usize selects the same table index as the RFC's Integerify (the whole 64-byte last block as a little-endian integer) mod N, for every power of two N that fits in usize.", "quantifier": "every block sequence, every power of two N, both widths", "why_tests_cant": "2^512 blocks times all N.", "anchors": ["src/scrypt.rs: integerify, ro_mix (209)"]}
{"id": "C20", "title": "scrypt mixing functions preserve shape and stay in bounds", "statement": "For every r >= 1 and n >= 1 BlockMix and ROMix map 2r blocks of 64 bytes to 2r blocks of 64 bytes, never index out of bounds, and the ROMix table index is always < n.", "quantifier": "every r, n and input block vector", "why_tests_cant": "Unbounded r and n.", "anchors": ["src/scrypt.rs: block_mix, ro_mix"]}
{"id": "C21", "title": "Scrypt size computation must not wrap", "statement": "A caller relies on derive either failing or using p*128*r bytes of expanded state. With overflow checks off, p*2*64*r wraps in usize: with p*128*r = 0 mod 2^usize_bits (e.g. r=1, p=2^25 on 32-bit, p=2^57 on 64-bit) derive returns Ok with an output that does not depend on the salt or on N. With overflow checks on it panics instead of returning an error.", "quantifier": "every passphrase, salt, N and such p", "why_tests_cant": "Requires parameter values no test uses, and a claim about all salts.", "anchors": ["src/scrypt.rs: Scrypt::derive (279)"]}
{"id": "C22", "title": "AES encrypt computes FIPS-197 Cipher", "statement": "After a successful init with a 16, 24 or 32 byte key, encrypt returns the FIPS-197 encryption of the block under that key (10, 12, 14 rounds) for every key and block, and never panics.", "quantifier": "every key of the three sizes, every block", "why_tests_cant": "2^256 keys times 2^128 blocks.", "anchors": ["src/aes.rs: AES::init, AES::encrypt, expand_key, AESSide, AESEncrypt, to_block, from_block"]}
{"id": "C23", "title": "AES decrypt computes FIPS-197 InvCipher", "statement": "After a successful init, decrypt returns the FIPS-197 inverse cipher of the block for every key and block, and never panics.", "quantifier": "every key of the three sizes, every block", "why_tests_cant": "2^256 keys times 2^128 blocks.", "anchors": ["src/aes.rs: AES::decrypt, AESDecrypt"]}
{"id": "C24", "title": "AES decrypt and encrypt are mutually inverse", "statement": "On an initialised instance decrypt(encrypt(b)) = b and encrypt(decrypt(b)) = b for every block; encryption is a permutation of the blocks.", "quantifier": "every key, every block", "why_tests_cant": "2^256 keys times 2^128 blocks.", "anchors": ["src/aes.rs: AES::encrypt, AES::decrypt"]}
{"id": "C25", "title": "AES initialisation contract", "statement": "init succeeds exactly for keys of 16, 24 or 32 bytes and otherwise returns InvalidKeySize leaving the instance exactly as it was (a previously installed key stays usable). encrypt and decrypt return NotInitialized exactly when no init has succeeded so far.", "quantifier": "every key length, every history of init/encrypt/decrypt", "why_tests_cant": "Histories and key lengths are unbounded.", "anchors": ["src/aes.rs: AES::new, AES::init, AESError"]}
{"id": "C26", "title": "AES behaviour depends only on the last successful init", "statement": "For every history of init, encrypt and decrypt calls starting from AES::new(), no call panics and every result equals that of a fresh instance initialised once with the key of the most recent successful init.", "quantifier": "every finite history of calls", "why_tests_cant": "Unbounded histories, all keys.", "anchors": ["src/aes.rs: AES"]}
{"id": "C27", "title": "AES field arithmetic and tables", "statement": "The multiplication routine computes the product in GF(2)[x]/(x^8+x^4+x^3+x+1) for every byte and every multiplier; the S-box table is the FIPS-197 affine map of the field inverse, the inverse table is its inverse, Rcon[i] = x^(i-1).", "quantifier": "all bytes, all multipliers, all table entries", "why_tests_cant": "Multipliers are unbounded; table entries are covered by tests only through a few vectors.", "anchors": ["src/aes.rs: double, mul, SBOX, INV_SBOX, RCON, sub_word, rot_word"]}
{"id": "C28", "title": "Cipher computes CBC over PKCS#7 padding, for any chunking", "statement": "Cipher::new(iv), successful init(key), any sequence of write() calls, then flush(): the concatenated outputs equal CBC-AES encryption under key and iv of the concatenated input padded with PKCS#7 to 16 bytes; no call fails or panics (no single write being larger than C98 allows, about a quarter of the address space).", "quantifier": "every key, iv, message, and fragmentation", "why_tests_cant": "Unbounded messages and exponentially many fragmentations.", "anchors": ["src/aes_cbc.rs: Cipher::write, Cipher::flush, Cipher::encrypt_block", "src/pkcs7.rs: Pad::write, Pad::flush"]}
{"id": "C29", "title": "Ciphertext length", "statement": "The total ciphertext is always a positive multiple of 16 and exactly 16*(len/16+1) bytes; every single write() returns a multiple of 16 bytes; flush() returns exactly 16 bytes.", "quantifier": "every message and fragmentation", "why_tests_cant": "All lengths and fragmentations.", "anchors": ["src/aes_cbc.rs: Cipher::write, Cipher::flush"]}
{"id": "C30", "title": "AES-CBC round trip under arbitrary re-chunking", "statement": "Encrypting a message with any fragmentation and decrypting the resulting ciphertext with the same key and iv, cut into write() calls at arbitrary other places, succeeds and returns exactly the message.", "quantifier": "every key, iv, message, fragmentation of plaintext, fragmentation of ciphertext", "why_tests_cant": "Unbounded messages, two independent exponential families of fragmentations.", "anchors": ["src/aes_cbc.rs: Cipher, Decipher", "src/pkcs7.rs: Pad, Unpad"]}
{"id": "C31", "title": "Streaming progress", "statement": "After writes totalling n bytes a Cipher has emitted exactly 16*(n/16) bytes; a Decipher fed n ciphertext bytes has emitted exactly all decrypted whole blocks but the last one (16*(n/16 - 1) bytes, nothing before the second block). No more than 15 (resp. 31) bytes are ever held back.", "quantifier": "every history of writes", "why_tests_cant": "Every prefix of every history.", "anchors": ["src/aes_cbc.rs: Cipher::write, Decipher::write", "src/pkcs7.rs: Pad::write, Unpad::write"]}
{"id": "C32", "title": "Decipher computes CBC decryption and unpadding exactly", "statement": "For every ciphertext whose length is a multiple of 16 and every fragmentation, the concatenated Decipher outputs are the CBC decryption with padding removed when flush succeeds; flush fails with UnfinishedBlock exactly when there was no block, with InvalidPadding exactly when the last byte v of the plaintext exceeds 16 or one of the last v bytes differs from v.", "quantifier": "every ciphertext, fragmentation, key, iv", "why_tests_cant": "Unbounded ciphertexts and adversarial contents.", "anchors": ["src/aes_cbc.rs: Decipher::write, Decipher::flush", "src/pkcs7.rs: Unpad::write, Unpad::flush"]}
{"id": "C33", "title": "Only PKCS#7-valid padding is accepted", "statement": "flush should succeed only if the decrypted data ends in v bytes of value v with 1 <= v <= 16.", "quantifier": "every ciphertext and key", "why_tests_cant": "Adversarial inputs, universally quantified.", "anchors": ["src/pkcs7.rs: Unpad::flush (lines 122-146)", "src/aes_cbc.rs: Decipher::flush"]}
{"id": "C34", "title": "A ciphertext with an incomplete last block is rejected", "statement": "The documentation of UnfinishedBlock says it is returned when the data length is not divisible by the block size, so a Decipher fed a number of bytes that is not a multiple of 16 should fail at flush.", "quantifier": "every ciphertext length and content", "why_tests_cant": "All lengths and contents.", "anchors": ["src/aes_cbc.rs: Decipher::flush (217-222), Decipher::write (buffer)", "src/pkcs7.rs: UnpadError::UnfinishedBlock"]}
{"id": "C35", "title": "Use before init", "statement": "A Cipher or Decipher on which no init succeeded never produces ciphertext or plaintext: any call that would have to process a block returns NotInitialized, other calls return an empty Ok. When write returns NotInitialized the whole blocks accumulated so far are dropped and only the incomplete tail is kept.", "quantifier": "every history before the first successful init", "why_tests_cant": "Every history and fragmentation.", "anchors": ["src/aes_cbc.rs: Cipher::write, Cipher::flush, Decipher::write"]}
{"id": "C36", "title": "A failed Decipher::flush changes nothing", "statement": "If flush returns an error, the Decipher behaves in every later call exactly as if flush had not been called; after a successful flush no plaintext byte of the finished message can appear in later output.", "quantifier": "every reachable state and every continuation", "why_tests_cant": "Every history.", "anchors": ["src/pkcs7.rs: Unpad::flush", "src/aes_cbc.rs: Decipher::flush"]}
{"id": "C37", "title": "Message sequences on one Cipher/Decipher pair", "statement": "A Cipher used for several messages in a row (writes then flush for each) with a Decipher that flushes at the same message boundaries returns every message intact, for arbitrary fragmentation of every message on both sides; the second and later messages are encrypted with the last ciphertext block of the previous message as iv.", "quantifier": "every finite sequence of messages, every fragmentation", "why_tests_cant": "Unbounded sequences and lengths.", "anchors": ["src/aes_cbc.rs: Cipher, Decipher (iv chaining)"]}
{"id": "C38", "title": "CBC error propagation", "statement": "Changing one ciphertext block changes the decrypted stream in at most that block and the next one, and the next one changes by exactly the xor difference.", "quantifier": "every ciphertext, block position and modification", "why_tests_cant": "Universal over ciphertexts and positions.", "anchors": ["src/aes_cbc.rs: Decipher::write"]}
{"id": "C39", "title": "Re-keying in mid-stream", "statement": "Calling init with a valid key on a Cipher or Decipher in use changes the key for blocks processed afterwards and nothing else (iv chain and buffered bytes are kept); calling it with an invalid key returns InvalidKeySize and changes nothing.", "quantifier": "every state, key and continuation", "why_tests_cant": "Every history.", "anchors": ["src/aes_cbc.rs: Cipher::init, Decipher::init"]}
{"id": "C40", "title": "PKCS#7 pad/unpad are inverse for every usable block size", "statement": "For every block size from 1 to 255, every message and both fragmentations, padding then unpadding returns the message; for block size 256 it does not.", "quantifier": "every block size, message and fragmentation", "why_tests_cant": "Tests use block size 4 and a few strings.", "anchors": ["src/pkcs7.rs: Pad, Unpad"]}
{"id": "C41", "title": "wrapping_sum! adds modulo the word size", "statement": "wrapping_sum!(a, x1, ..., xn) is the sum modulo 2^width for every number of arguments, independent of their order, and never panics.", "quantifier": "every argument list", "why_tests_cant": "Unbounded argument lists and values.", "anchors": ["src/common.rs: wrapping_sum!"]}
{"id": "C42", "title": "Error messages identify the error", "statement": "Displaying an error yields the type prefix followed by its description, and two different errors of one type never display the same text.", "quantifier": "every pair of error values of each error type", "why_tests_cant": "Finite, but no test covers it.", "anchors": ["src/aes.rs: AESError", "src/pkcs7.rs: UnpadError", "src/aes_cbc.rs: DecipherError", "src/scrypt.rs: ScryptError"]}
{"id": "C43", "title": "No panic in any AES-CBC history", "statement": "No sequence of init, write and flush calls on a Cipher or Decipher, with arbitrary arguments and including calls after errors and before init, panics, as long as no single write is larger than C98 allows (about a quarter of the address space).", "quantifier": "every finite history of calls", "why_tests_cant": "Unbounded histories.", "anchors": ["src/aes_cbc.rs: Cipher, Decipher", "src/pkcs7.rs: Pad, Unpad", "src/aes.rs: AES"]}
{"id": "C44", "title": "CBC chaining and iv sensitivity", "statement": "Under a fixed key two different ivs, or two messages of equal length, never give the same ciphertext for the same message / iv: encryption is injective in (message) for fixed iv and in the iv for a fixed message.", "quantifier": "every key, pair of ivs, pair of messages", "why_tests_cant": "Universal over pairs.", "anchors": ["src/aes_cbc.rs: Cipher"]}
{"id": "C45", "title": "HMac instance history semantics: digest() does not reset", "statement": "For every history of update() and digest() calls on one HMac instance, every returned MAC is the one predicted by two never-reset abstract SHA-256 machines: update() feeds the inner one; digest() finishes the inner one, feeds its result to the outer one and finishes that. Only the first digest() (with all updates before it) is the RFC 2104 MAC; a second digest() is not (there is a case in which it returns something else).", "quantifier": "every key, every finite sequence of update and digest calls", "why_tests_cant": "Histories are unbounded; unit tests call digest exactly once.", "anchors": ["src/hmac.rs: HMac::new, update, digest"]}
{"id": "C46", "title": "Passwords that PBKDF2 and scrypt cannot tell apart", "statement": "A password of at most 64 bytes and the same password followed by zero bytes up to 64 bytes give the same PBKDF2 and scrypt outcome for every salt, cost and output length; a password over 64 bytes gives the same outcome as its 32-byte SHA-256 hash.", "quantifier": "every password, salt, parameters and output buffer", "why_tests_cant": "Universal over passwords and all other arguments.", "anchors": ["src/pbkdf2.rs: pbkdf2_sha256", "src/scrypt.rs: Scrypt::derive", "src/hmac.rs: HMac::new"]}
{"id": "C47", "title": "scrypt output shape", "statement": "For accepted parameters the outcome of Scrypt::derive does not depend on what the output buffer held before; a successful call keeps the length of the buffer; a shorter buffer receives a prefix of what a longer one receives; an empty one stays empty.", "quantifier": "every parameter set, passphrase, salt, pair of buffers", "why_tests_cant": "Universal over buffers and their previous contents.", "anchors": ["src/scrypt.rs: Scrypt::derive", "src/pbkdf2.rs: pbkdf2_sha256"]}
{"id": "C48", "title": "SHA-256 length extension", "statement": "From the digest and the length of a message alone, and without the message, the digest of the message followed by its padding and by any bytes can be computed; so equal-length messages with equal digests keep colliding under extension. (This is why the bare hash must not be used as a MAC.)", "quantifier": "every message, every extension", "why_tests_cant": "Universal over messages.", "anchors": ["src/sha256.rs: SHA256::update, digest"]}
{"id": "C49", "title": "SHA-256 collisions come from the compression function only", "statement": "If two different messages, fed in any chunks, get the same digest, then at some block of the one and some block of the other the compression function received different inputs and gave the same result: buffering and padding never merge messages.", "quantifier": "every pair of messages, every chunking", "why_tests_cant": "No test can exhibit or exclude collisions.", "anchors": ["src/sha256.rs: SHA256::update, digest, transform"]}
{"id": "C50", "title": "Salsa20 core symmetries", "statement": "Moving the words of the input along the diagonals of the 4 by 4 matrix moves the output words in the same way, for every number of rounds; inputs constant along diagonals have such outputs; the zero input is a fixed point; with 0 rounds every word is doubled.", "quantifier": "every 64-byte input and round count", "why_tests_cant": "Universal over inputs and rounds.", "anchors": ["src/salsa20.rs: salsa20"]}
{"id": "C51", "title": "Reusing key and iv shows common prefixes", "statement": "Two messages encrypted with the same key and iv (any pieces): the ciphertexts agree in their first k blocks exactly when the padded messages agree in their first k blocks.", "quantifier": "every key, iv, pair of messages, fragmentation, k", "why_tests_cant": "Universal over pairs of messages; the only-if direction needs injectivity.", "anchors": ["src/aes_cbc.rs: Cipher, Decipher", "src/pkcs7.rs: Pad, Unpad"]}
{"id": "C52", "title": "Equal ciphertext blocks reveal the xor of plaintext blocks", "statement": "For two messages under one key and any ivs, ciphertext block i of the one equals block j of the other exactly when the xor of the plaintext blocks equals the xor of the blocks chained into them (iv or previous ciphertext block).", "quantifier": "every key, ivs, pair of messages, pair of block positions", "why_tests_cant": "Universal over messages and positions.", "anchors": ["src/aes_cbc.rs: Cipher, Decipher", "src/pkcs7.rs: Pad, Unpad"]}
{"id": "C53", "title": "A different iv when decrypting is not detected", "statement": "Decrypting the same ciphertext under another iv changes only the first 16 plaintext bytes, by exactly the xor of the ivs; with two or more blocks flush gives the same answer.", "quantifier": "every key, pair of ivs, ciphertext, fragmentation", "why_tests_cant": "Universal over ciphertexts and ivs.", "anchors": ["src/aes_cbc.rs: Cipher, Decipher", "src/pkcs7.rs: Pad, Unpad"]}
{"id": "C54", "title": "Writes can be joined and split anywhere", "statement": "At any place of any history of init, write and flush calls (also before init and after errors), replacing write(a), write(b) by write(a ++ b) changes no other answer, and the answer is the two answers joined; without a key it fails exactly when one of the two fails, and no byte is returned.", "quantifier": "every history, every place, every a and b", "why_tests_cant": "Unbounded histories.", "anchors": ["src/aes_cbc.rs: Cipher, Decipher", "src/pkcs7.rs: Pad, Unpad"]}
{"id": "C55", "title": "Calls without effect", "statement": "At any place of any history, an empty write, an init with a key of a wrong size, and an init with the key in use change no answer of any other call.", "quantifier": "every history and place", "why_tests_cant": "Unbounded histories.", "anchors": ["src/aes_cbc.rs: Cipher, Decipher", "src/pkcs7.rs: Pad, Unpad"]}
{"id": "C56", "title": "Missing flush between messages", "statement": "The ciphertexts of several messages from one Cipher, given to a Decipher with one flush at the very end, are accepted, and every message but the last comes out with its padding bytes attached.", "quantifier": "every sequence of messages, every fragmentation", "why_tests_cant": "Unbounded sequences.", "anchors": ["src/aes_cbc.rs: Cipher, Decipher", "src/pkcs7.rs: Pad, Unpad"]}
{"id": "C57", "title": "flush is a padding oracle", "statement": "If the ciphertext block before the last is replaced by c-prime, flush succeeds exactly when (last plaintext block) xor c xor c-prime ends in an acceptable trailer.", "quantifier": "every key, iv, ciphertext of at least two blocks, replacement block", "why_tests_cant": "Universal over ciphertexts and replacements.", "anchors": ["src/aes_cbc.rs: Cipher, Decipher", "src/pkcs7.rs: Pad, Unpad"]}
{"id": "C58", "title": "The hexadecimal test helper decodes exactly hexadecimal", "statement": "The helper the crate's own AES tests rely on returns bytes b for a text of even length if and only if the text is the hexadecimal notation of b (either case, high digit first); on any text it panics exactly when some letter is not a hexadecimal digit, and an odd last digit is checked but dropped.", "quantifier": "all byte strings", "why_tests_cant": "the helper is itself only exercised by a few literals in tests; a wrong decode would make the AES test vectors meaningless", "anchors": ["src/common.rs: hex_to_vec"]}
{"id": "C59", "title": "A debug build that does not panic agrees with every wider build", "statement": "If a history of calls on SHA256 or HMac, a pbkdf2_sha256 call or a Scrypt::derive call returns without panicking in a debug build, then every build, debug or release, for the same or a wider usize returns the same bytes and the same Result. The converse fails.", "quantifier": "all inputs, parameters, histories of calls, and pairs of targets", "why_tests_cant": "tests run on one target and one profile; agreement must hold for all inputs across targets (usize arithmetic, the truncating cast in Integerify, capacity limits)", "anchors": ["src/sha256.rs: SHA256::update, SHA256::digest", "src/hmac.rs: HMac", "src/pbkdf2.rs: pbkdf2_sha256", "src/scrypt.rs: Scrypt::derive, integerify"]}
{"id": "C60", "title": "AES and AES-CBC do not depend on the platform or the build profile", "statement": "Every history of calls on an AES, Cipher or Decipher instance, including calls that fail, leaves the same state and returns the same bytes and errors on every platform and in every build profile, as long as no single write is larger than C98 allows for the platforms compared.", "quantifier": "all histories of calls, keys, ivs, inputs and pairs of targets", "why_tests_cant": "tests run on one target and one profile", "anchors": ["src/aes.rs: AES", "src/aes_cbc.rs: Cipher, Decipher", "src/pkcs7.rs: Pad, Unpad"]}
{"id": "C61", "title": "Work factor", "statement": "Hashing m bytes calls the compression function exactly floor((m+8)/64)+1 times for every chunking; pbkdf2_sha256 makes max(c,1) HMACs per 32-byte output block, with an exact count of compressions depending on lengths only; Scrypt::derive calls the Salsa20/8 core exactly 4*N*r*p times when it succeeds and never when it rejects its parameters. None of these depends on the contents of passwords, salts or messages.", "quantifier": "all messages, chunkings, passwords, salts, parameters, buffers and targets", "why_tests_cant": "tests observe results and not work; a shortcut taken for some inputs only would not be seen", "anchors": ["src/sha256.rs: SHA256::update, SHA256::digest, process_block", "src/pbkdf2.rs: pbkdf2_sha256", "src/scrypt.rs: Scrypt::derive, ro_mix, block_mix", "src/salsa20.rs: salsa20"]}
{"id": "C62", "title": "SHA-256, as written in the source text", "statement": "Evaluating the text of sha256.rs: new, any number of update calls and one digest return the SHA-256 digest of the bytes fed when their bit length fits a usize; with overflow checks the evaluation panics exactly beyond that; and every history of update and digest calls returns what the never-reset hash machine returns.", "quantifier": "all targets, chunkings and histories of calls", "why_tests_cant": "the claim is about the program text itself, evaluated by a formal semantics, for all inputs and histories; tests run a few vectors", "anchors": ["src/sha256.rs: SHA256::new, SHA256::update, SHA256::digest, process_block"]}
{"id": "C63", "title": "HMAC-SHA256, as written in the source text", "statement": "Evaluating the text of hmac.rs: new(key), any number of update calls and one digest return HMAC-SHA256 of the bytes fed; every history of calls returns what two never-reset hash machines return.", "quantifier": "all targets, keys, chunkings and histories of calls", "why_tests_cant": "the claim is about the program text itself, evaluated by a formal semantics, for all inputs and histories; tests run a few vectors", "anchors": ["src/hmac.rs: HMac::new, HMac::update, HMac::digest"]}
{"id": "C64", "title": "PBKDF2, as written in the source text", "statement": "Evaluating the text of pbkdf2.rs: pbkdf2_sha256 fills its buffer with the key of RFC 2898; with overflow checks it panics exactly when the password or the salt is too long.", "quantifier": "all targets, passwords, salts, iteration counts and buffers", "why_tests_cant": "the claim is about the program text itself, evaluated by a formal semantics, for all inputs and histories; tests run a few vectors", "anchors": ["src/pbkdf2.rs: pbkdf2_sha256"]}
{"id": "C65", "title": "Salsa20, as written in the source text", "statement": "Evaluating the text of salsa20.rs: the first 64 bytes of the output buffer become the Salsa20 core of the first 64 bytes of the input and the rest stays; it panics exactly when a buffer is too short.", "quantifier": "all inputs, round counts and buffers", "why_tests_cant": "the claim is about the program text itself, evaluated by a formal semantics, for all inputs and histories; tests run a few vectors", "anchors": ["src/salsa20.rs: salsa20"]}
{"id": "C66", "title": "Scrypt, as written in the source text", "statement": "Evaluating the text of scrypt.rs: with accepted parameters derive fills its buffer with the key of RFC 7914; it returns an error exactly for r = 0, n = 0, n not a power of two and p = 0, checked in this order, and then leaves the buffer alone.", "quantifier": "all targets, parameters, passwords, salts and buffers", "why_tests_cant": "the claim is about the program text itself, evaluated by a formal semantics, for all inputs and histories; tests run a few vectors", "anchors": ["src/scrypt.rs: Scrypt::new, Scrypt::derive"]}
{"id": "C67", "title": "AES, as written in the source text", "statement": "Evaluating the text of aes.rs: every history of init, encrypt and decrypt calls on one instance answers as FIPS-197 says for the key of the most recent successful init, with the documented errors otherwise, and nothing panics; default() gives the same instance as new().", "quantifier": "all targets and histories of calls", "why_tests_cant": "the claim is about the program text itself, evaluated by a formal semantics, for all inputs and histories; tests run a few vectors", "anchors": ["src/aes.rs: AES"]}
{"id": "C68", "title": "AES-CBC, as written in the source text", "statement": "Evaluating the text of aes_cbc.rs and pkcs7.rs: every history of init, write and flush calls on a Cipher or a Decipher, including failing ones, returns what the abstract encryptor or decryptor returns, and nothing panics (within the limits of C98).", "quantifier": "all targets, ivs and histories of calls whose single writes are more than a block below isize::MAX bytes", "why_tests_cant": "the claim is about the program text itself, evaluated by a formal semantics, for all inputs and histories; tests run a few vectors", "anchors": ["src/aes_cbc.rs: Cipher, Decipher", "src/pkcs7.rs: Pad, Unpad"]}
{"id": "C69", "title": "AES-CBC encrypts and decrypts messages, as written in the source text", "statement": "Evaluating the text: init, any writes and flush of a Cipher output the CBC encryption of the PKCS#7-padded message, and a Decipher fed that ciphertext in any pieces gives the message back.", "quantifier": "all targets, keys, ivs, messages and fragmentations", "why_tests_cant": "the claim is about the program text itself, evaluated by a formal semantics, for all inputs and histories; tests run a few vectors", "anchors": ["src/aes_cbc.rs: Cipher, Decipher", "src/pkcs7.rs: Pad, Unpad"]}
{"id": "C70", "title": "Every call returns or panics", "statement": "Evaluating the text of the crate: every call of a public function and every history of calls on an object ends with a value or a Rust panic, never runs forever or hits an ill-typed operation, and needs at most 65 tests of a while loop and 8 nested calls of crate functions, whatever the input; the result does not depend on those bounds.", "quantifier": "all targets, inputs, parameters and histories of calls", "why_tests_cant": "termination and stack use for every input cannot be observed by finitely many runs", "anchors": ["src/sha256.rs", "src/hmac.rs", "src/pbkdf2.rs", "src/salsa20.rs", "src/scrypt.rs", "src/aes.rs", "src/aes_cbc.rs", "src/pkcs7.rs"]}
{"id": "C71", "title": "The texts of errors, as written in the source", "statement": "Evaluating the text: description() of every error value returns its documented sentence, and displaying the error appends the name of its type, a colon, a space and that sentence to what the formatter already holds, and succeeds.", "quantifier": "all error values of the four error types and all contents of the formatter", "why_tests_cant": "no test covers the error texts; the formatter contents are arbitrary", "anchors": ["src/aes.rs: AESError", "src/pkcs7.rs: UnpadError", "src/aes_cbc.rs: DecipherError", "src/scrypt.rs: ScryptError"]}
{"id": "C72", "title": "Hashes, PBKDF2 and Salsa20 show only lengths and counts", "statement": "Evaluating the text of the crate, an observer who sees every test, index, slice bound, loop count, shift amount, divisor and call, but no data, learns from SHA-256, HMAC, PBKDF2 and the Salsa20 core nothing but the lengths of the inputs, the iteration or round count and the output length: two executions that agree on those show exactly the same, and both panic or both return.", "quantifier": "all targets, all pairs of inputs of the same lengths, all histories of calls", "why_tests_cant": "a statement about all pairs of executions; a timing test samples some", "anchors": ["src/sha256.rs: SHA256", "src/hmac.rs: HMac", "src/pbkdf2.rs: pbkdf2_sha256", "src/salsa20.rs: salsa20", "src/scrypt.rs: Scrypt::block_mix", "src/pkcs7.rs: Pad"]}
{"id": "C73", "title": "Six functions are the only places where data steers the execution", "statement": "Every function of the API is oblivious in the sense of C72 once the S-box lookups (encryption, decryption, key schedule), the doubling in the AES field, the mixing loop of scrypt and the padding check are replaced by any code that is.", "quantifier": "all targets, all programs that share the rest of the crate, all pairs of arguments of the same lengths", "why_tests_cant": "a statement about all pairs of executions of all programs of a family", "anchors": ["src/aes.rs: sub_word, lookup_sbox, double", "src/scrypt.rs: Scrypt::ro_mix", "src/pkcs7.rs: Unpad::flush"]}
{"id": "C74", "title": "AES shows its whole key and every block", "statement": "The observer of C72 learns everything from AES: two sessions `AES::new(); init(key); encrypt(block)` (or `decrypt`), with whatever calls after them, look the same only if the keys and the blocks are the same; two sessions `Cipher::new(iv); init(key); ...` (or `Decipher`) only if the keys are. The S-box is a table indexed by secret bytes, so the crate's AES is unsafe against an observer of memory accesses.", "quantifier": "all targets, all pairs of keys of 16, 24 or 32 bytes, all pairs of blocks, all continuations", "why_tests_cant": "a statement about all pairs of executions; a timing test samples some", "anchors": ["src/aes.rs: AES::init, AES::encrypt, AES::decrypt, sub_word, enc_sub_bytes, dec_sub_bytes", "src/aes_cbc.rs: Cipher::init, Decipher::init"]}
{"id": "C75", "title": "What the padding check shows", "statement": "The observer of C72 learns from `Decipher::flush` exactly this of the block held back: whether there is one, whether its last byte is over 16, and if not, the byte itself and whether the padding it asks for is right. Which padding byte is wrong, and the data before the padding, are not seen. The two ways to get `InvalidPadding` look different although the answer is the same.", "quantifier": "all targets, all pairs of histories of init, write and flush calls with any keys, initialization vectors and data", "why_tests_cant": "a statement about all pairs of histories; a timing test samples some", "anchors": ["src/pkcs7.rs: Unpad::flush", "src/aes_cbc.rs: Decipher::flush"]}
{"id": "C76", "title": "What scrypt shows is the table entries it reads", "statement": "The observer of C72 learns from `Scrypt::new(r, n, p)` and `derive(passphrase, salt, out)` only the lengths of the three strings and, for every lane and every step of scrypt, the number Integerify(X) (its low 32 or 64 bits) whose residue modulo n selects the table entry to read; and all of these numbers are seen. They depend on the passphrase: there are two passphrases of one byte for which the first entry read differs.", "quantifier": "all targets, all accepted parameters within memory, all pairs of passphrases, salts and output buffers of the same lengths", "why_tests_cant": "a statement about all pairs of executions; a timing test samples some", "anchors": ["src/scrypt.rs: Scrypt::derive, ro_mix, integerify"]}
{"id": "C77", "title": "Observed CBC sessions give away the messages", "statement": "The observer of C72 who knows the initialization vector learns from the execution of `Cipher::new(iv)`, `init(key)`, any calls of `write` and `flush` and a last `flush` the key, every byte written and in which calls. From `Decipher::new(iv)`, `init(key)` and any calls of `write` and `flush` the observer learns the key and everything these calls return.", "quantifier": "all targets, all initialization vectors, all pairs of valid keys and of histories of calls", "why_tests_cant": "a statement about all pairs of executions; a timing test samples some", "anchors": ["src/aes_cbc.rs: Cipher::write, Cipher::flush, encrypt_block, Decipher::write, Decipher::flush", "src/pkcs7.rs: Pad, Unpad"]}
{"id": "C78", "title": "Accept or reject is enough to decrypt", "statement": "There is a strategy that gets only an initialization vector, a ciphertext and the yes/no answers to questions 'does `flush` succeed on a `Decipher` made with this vector and given this one block?', and that finds the whole message of everything a `Cipher` encrypted with the same key. It asks at most 4864 questions per block of the ciphertext.", "quantifier": "all targets, all valid keys, all initialization vectors, all messages and ways of writing them", "why_tests_cant": "the strategy's questions depend on the answers, for any of 2^128 keys and messages of any length; a test runs it for one", "anchors": ["src/aes_cbc.rs: Decipher::write, Decipher::flush, Cipher::write, Cipher::flush", "src/pkcs7.rs: Unpad::flush"]}
{"id": "C79", "title": "Accept or reject is enough to forge", "statement": "With the same questions, and without a key, a strategy makes for every message an initialization vector and a ciphertext that a `Decipher` with that key decrypts to exactly that message. It asks at most 4864 questions per block.", "quantifier": "all targets, all valid keys, all messages, all ways of writing the ciphertext", "why_tests_cant": "the questions depend on the answers, for every key and every message", "anchors": ["src/aes_cbc.rs: Decipher::write, Decipher::flush", "src/pkcs7.rs: Unpad::flush"]}
{"id": "C80", "title": "Guesses about earlier blocks can be tested", "statement": "A block p is written to a `Cipher` at a block boundary, among any other calls of `write` and `flush`. Somebody who has seen all answers, and at a later block boundary has one block of their choice written to the same `Cipher`, can choose it so that its answer equals the answer to p exactly if their guess of p was right: the next initialization vector is always the last block answered.", "quantifier": "all targets, all valid keys and initialization vectors, all histories of calls before and between, all blocks and guesses", "why_tests_cant": "the histories are unbounded and the equivalence is about all 2^128 guesses", "anchors": ["src/aes_cbc.rs: Cipher::write, Cipher::flush, encrypt_block"]}
{"id": "C81", "title": "A hash that panicked never answers wrongly afterwards", "statement": "A panic of `SHA256::update`, `SHA256::digest`, `HMac::update` or `HMac::digest` can be caught and the object used again. Every later `digest` on it panics too. So whatever any call returns, before or after panics, is what SHA-256 (or HMAC) says it should be; the whole sequence of answers and panics is that of an abstract hash with a byte counter of `usize`.", "quantifier": "all targets, all keys whose bit length fits, all histories of calls, with panics caught anywhere", "why_tests_cant": "the object's state after a panic is half-updated; whether it can reach an answer again is a question about all continuations", "anchors": ["src/sha256.rs: SHA256::new, SHA256::update, SHA256::digest", "src/hmac.rs: HMac::new, HMac::update, HMac::digest"]}
{"id": "C82", "title": "Key derivation fills the output buffer or leaves it alone", "statement": "`pbkdf2_sha256` and `Scrypt::derive` never leave a half-written buffer: when they panic, and when `derive` returns an error, the bytes of `out` are those it had before the call. With overflow checks a return means that the whole buffer holds the derived key.", "quantifier": "all targets, all passwords, salts, round counts and parameters, all buffers, panics at any point", "why_tests_cant": "a panic half-way through is provoked only by inputs of hundreds of megabytes on 32-bit targets or by memory sizes that do not fit, and there are many places where it can happen", "anchors": ["src/pbkdf2.rs: pbkdf2_sha256", "src/scrypt.rs: Scrypt::derive"]}
{"id": "C83", "title": "What a panic of salsa20 leaves in the buffer", "statement": "A `salsa20` that panics because the input is shorter than 64 bytes has not touched the output buffer. One that panics because the output buffer is shorter than 64 bytes has already written to it every whole 4-byte word of the result that fits; the bytes after them are as before.", "quantifier": "all targets, all inputs, round counts and output buffers", "why_tests_cant": "unit tests do not look at buffers after panics; the claim is about every length of the buffer", "anchors": ["src/salsa20.rs: salsa20, littleendian_inv"]}
{"id": "C84", "title": "Work on a stream can be taken up by a new object", "statement": "A `Cipher` whose key is set has answered some calls and is lost. A new `Cipher` made with the last 16 bytes answered so far (the initialization vector when nothing was answered), given the same key and the bytes that were written but are in no answer yet, answers all further calls as the lost one would have. A `Decipher` made with the last block before any place between blocks and given only the blocks after it answers what one that was given everything answers, without as many bytes at the front. In particular the end of a message, from any multiple of 16 bytes on, can be read from the ciphertext after it and the one block before it.", "quantifier": "all targets, keys, initialization vectors, histories that keep the key, places, ways to cut the data and further calls", "why_tests_cant": "the claim compares every history with a shorter one on another object", "anchors": ["src/aes_cbc.rs: Cipher::new, Cipher::init, Cipher::write, Cipher::flush, Decipher::new, Decipher::init, Decipher::write, Decipher::flush", "src/pkcs7.rs: Pad, Unpad"]}
{"id": "C85", "title": "Objects do not disturb each other", "statement": "Calls on any number of objects of the crate, made in any order, give each object the answers it gives when only its own calls are made, also when calls panic and the panics are caught. So messages encrypted at the same time by different `Cipher`s are each encrypted correctly in whatever order the calls come.", "quantifier": "all targets, numbers of objects, orders of calls, also with caught panics", "why_tests_cant": "there are unboundedly many orders of calls", "anchors": ["src/aes_cbc.rs: Cipher", "src/sha256.rs: SHA256", "src/hmac.rs: HMac", "src/lib.rs"]}
{"id": "C86", "title": "What is written in the files computes the standards", "statement": "The characters of the ten files of `src`, read as Rust (comments and strings, tokens, operators and their precedence, statements, modules and imports, macros, traits with default methods, inferred types of integer literals), are one program, and in that program `SHA256`, `HMac`, `pbkdf2_sha256`, `salsa20`, `Scrypt`, `AES`, `Cipher` and `Decipher` answer as the standards say, for all inputs. The functions and constants of the text are those that the other claims about the source speak of, no more and no fewer.", "quantifier": "all targets, inputs, ways to cut them and histories of calls, as in C62 to C69; the text is the given one", "why_tests_cant": "a test runs what the compiler makes of the text, on some inputs", "anchors": ["src/lib.rs", "src/common.rs: wrapping_sum!", "src/sha256.rs", "src/hmac.rs", "src/pbkdf2.rs", "src/salsa20.rs", "src/scrypt.rs", "src/pkcs7.rs", "src/aes.rs", "src/aes_cbc.rs"]}
{"id": "C87", "title": "The model of the code and the text of the code agree", "statement": "For every history of calls of the public API, on every target, the model (about which C01 to C61 are stated) and the program that the files say give the same answers, leave the same buffers, and panic alike.", "quantifier": "all targets and inputs; all histories of calls of `SHA256`, `HMac`, `AES`, `Cipher` and `Decipher`; all arguments of `pbkdf2_sha256`, `salsa20` and `Scrypt::derive` (buffers are at most `isize::MAX` bytes long, and no single `write` is within a block of that)", "why_tests_cant": "an equality of two programs on all inputs and histories; a test compares some", "anchors": ["src/sha256.rs", "src/hmac.rs", "src/pbkdf2.rs", "src/salsa20.rs", "src/scrypt.rs", "src/pkcs7.rs", "src/aes.rs", "src/aes_cbc.rs"]}
{"id": "C88", "title": "The three defects are in the text", "statement": "In the program that the files say: `Scrypt` accepts cost parameters that its documentation excludes (`n = 1`, `n` too large for `r`, `p` too large) and returns a key; `Decipher` accepts decrypted data that ends in a byte 0, which is not PKCS#7 padding, and returns all of it; `Decipher` accepts a ciphertext followed by up to 15 stray bytes as if they were not there.", "quantifier": "all targets; all parameters outside of the documented ranges that pass the checks; all keys, ivs, messages, stray bytes and ways to cut the ciphertext", "why_tests_cant": "that no input of these kinds is rejected is a claim about all of them", "anchors": ["src/scrypt.rs: Scrypt::new, Scrypt::derive", "src/aes_cbc.rs: Decipher::write, Decipher::flush", "src/pkcs7.rs: Unpad::flush"]}
{"id": "C89", "title": "With fresh random ivs, ciphertexts look random", "statement": "An attacker chooses what is written to `Cipher`s that all have the same secret random key and each a fresh random iv, sees the ivs and everything the `Cipher`s give, and chooses the next plaintexts after that. With `n` blocks encrypted in total, it tells the ciphertexts from random octets, or from the encryption of other plaintexts of the same size, no better than by `n(n-1)/2^129` and what the same attacker, as a distinguisher with `n` queries, achieves against AES as a random function. The same holds with AES compared to a random permutation and twice the first term. The term is needed up to a constant factor: an attacker that has one block encrypted `n` times never sees the same ciphertext for two ivs, and does see it in random octets with probability about `n(n-1)/2^129`. If instead all calls are made on one `Cipher`, two blocks are enough to tell two plaintexts apart with certainty.", "quantifier": "all attackers (any functions of what was seen), all numbers of blocks, the three key sizes, all targets, all series of `write` and `flush` calls on each `Cipher`", "why_tests_cant": "a statement about probabilities over all keys and ivs and about all strategies", "anchors": ["src/aes_cbc.rs: Cipher::new, Cipher::init, Cipher::write, Cipher::flush", "src/aes.rs: AES::encrypt", "src/pkcs7.rs: Pad"]}
{"id": "C90", "title": "Equal HMAC digests mean equal messages or a collision", "statement": "If two `HMac`s, with any keys, give the same digest for two messages, each written in any pieces, then the messages are equal and the keys are equal once brought to 64 bytes, or the two computations contain a collision of the compression function of SHA-256. Keys of up to 64 bytes that are equal once brought to 64 bytes differ only by zeros at the end; keys of more than 64 bytes are equal or collide.", "quantifier": "all keys, all messages, all ways to cut them into pieces, all targets", "why_tests_cant": "a statement about all pairs of keys and messages", "anchors": ["src/hmac.rs: HMac::new, HMac::update, HMac::digest", "src/sha256.rs: SHA256"]}
{"id": "C91", "title": "Keys derived with different salts look random", "statement": "An attacker has keys derived from one secret password by `pbkdf2_sha256`; for each it names a salt not used before, the number of iterations and the size, after it has seen the earlier keys. With `n` iterations in total for all blocks of all keys, it tells the keys from random strings no better than by `n(n-1)/2^257` and what the same attacker, as a distinguisher with `n` queries, achieves against HMAC with that password as a random function. With a salt used twice it succeeds always.", "quantifier": "all attackers (any functions of what was seen), all distributions of the password, all numbers of iterations and sizes up to RFC 2898's limit, all targets", "why_tests_cant": "a statement about probabilities and about all strategies", "anchors": ["src/pbkdf2.rs: pbkdf2_sha256", "src/hmac.rs: HMac"]}
{"id": "C92", "title": "Digests cannot be forged", "statement": "A forger has messages of its choice authenticated by `HMac` with a secret key and then names a message that was not authenticated, and a digest. The probability that `HMac` gives that digest is at most `2^-256` and what the same forger, as a distinguisher with one query more, achieves against HMAC with that key as a random function. Messages may be written in any pieces. With up to v attempts, each answered with right or wrong and mixed with further questions, the probability that one of them succeeds is at most v times 2^-256 plus the sum of the advantages of v such distinguishers, one for each attempt.", "quantifier": "all forgers, all distributions of the key, all ways to cut messages, all targets", "why_tests_cant": "a statement about probabilities and about all strategies", "anchors": ["src/hmac.rs: HMac::new, HMac::update, HMac::digest"]}
{"id": "C93", "title": "Keys derived by scrypt with different salts look random", "statement": "An attacker has keys derived from one secret password by a `Scrypt`; for each it names a salt not used before and the size, after it has seen the earlier keys. With `q` keys it tells them from random strings no better than what the same attacker, as a distinguisher, achieves against HMAC with that password as a random function, plus `q(3q-1)/2` times the largest probability that scrypt's mixing function takes one value on random input. With salts that are not of p*128*r bytes the factor is `q(q-1)/2`, and one key alone is as good as random up to the advantage against HMAC.", "quantifier": "all attackers (any functions of what was seen), all distributions of the password, all parameters r, n, p for which there is memory, all targets", "why_tests_cant": "a statement about probabilities and about all strategies", "anchors": ["src/scrypt.rs: Scrypt::new, Scrypt::derive", "src/pbkdf2.rs: pbkdf2_sha256"]}
{"id": "C94", "title": "How often garbage is accepted", "statement": "A `Decipher` with any valid key and iv is given any number of whole blocks and then a uniformly random block, cut into pieces in any way, and `flush` is called. `flush` answers `Ok` with probability exactly 1/256 + (1/256 + 1/256^2 + ... + 1/256^16). The probability that such a ciphertext is one of a properly padded message is only 1/256 + 1/256^2 + ... + 1/256^16; the difference is the padding byte 0, which is accepted. So a wrong ciphertext is noticed by its padding in all but about one of 128 cases, and never reliably.", "quantifier": "all valid keys, ivs, whole-block prefixes, ways to cut into pieces, all targets", "why_tests_cant": "an exact probability over 2^128 blocks", "anchors": ["src/aes_cbc.rs: Decipher::init, Decipher::write, Decipher::flush"]}
{"id": "C95", "title": "HMac looks random if the compression function of SHA-256 does", "statement": "A distinguisher that has up to n messages authenticated by `HMac` with a secret key, in any pieces, each chosen after it has seen the earlier digests, tells `HMac` from a random function no better than: how well the two chaining values that the key leads to are told from two random ones; how well the compression function of SHA-256, keyed by its chaining value, is told from a random function by the same distinguisher; and, for each pair of messages, 2^-256 and the advantages of distinguishers of the compression function with one or two questions, one for each block. So forgeries (C92), keys derived by PBKDF2 (C91) and by scrypt (C93) rest on the compression function alone.", "quantifier": "all distinguishers (any functions of what was seen), all distributions of the key, all ways to cut messages into pieces, all targets", "why_tests_cant": "a statement about probabilities and about all strategies", "anchors": ["src/hmac.rs: HMac::new, HMac::update, HMac::digest", "src/sha256.rs: SHA256", "src/pbkdf2.rs: pbkdf2_sha256", "src/scrypt.rs: Scrypt::derive"]}
{"id": "C96", "title": "The work that the program in the text does", "statement": "The program read from the files of /repo/src does exactly as much work as the standards ask for, whatever the bytes are. A SHA-256 digest of m bytes, however they are cut into pieces, runs the compression function (m + 8) / 64 + 1 times; an HMAC (m + 8) / 64 + 4 times, plus the blocks of a key of more than 64 bytes; `pbkdf2_sha256` with c iterations runs max(c, 1) HMACs for each 32 bytes of output, none is skipped or done twice; `Scrypt::derive` runs the Salsa20 core 4 * N * r * p times and not at all when it returns an error, and hashes only as much as one iteration of PBKDF2 before and after. Encrypting m bytes with `Cipher`, in any pieces, runs AES on m / 16 + 1 blocks, decrypting m bytes with `Decipher` on m / 16 blocks, one for each block of the ciphertext, and the key schedule is computed once. In any other history of calls too, with errors, changes of key and several messages, a `Cipher` runs AES on one block for each block of ciphertext it returns, and one for each call that finds no key; a `Decipher` on one block for each complete block written to it, but only the first of a call if there is no key; and each `init` computes the key schedule once.", "quantifier": "all inputs, sizes, parameters, targets, ways to cut messages and histories of calls, for every call that returns", "why_tests_cant": "a test sees the result, not how often a function ran; the counts hold for every size and iteration count", "anchors": ["src/sha256.rs: SHA256::update, SHA256::digest, process_block", "src/hmac.rs: HMac", "src/pbkdf2.rs: pbkdf2_sha256", "src/scrypt.rs: Scrypt::derive, block_mix, ro_mix", "src/salsa20.rs: salsa20", "src/aes_cbc.rs: Cipher::write, Cipher::flush, Decipher::write, Decipher::flush", "src/aes.rs: AES::init, AES::encrypt, AES::decrypt"]}
{"id": "C97", "title": "Objects stay small and forget", "statement": "However long the stream is that an object works on, the object of the program read from the files of /repo/src stays small: a SHA256 holds exactly 96 octets and the length, an HMac two of those, an AES at most the 240 octets of a key schedule, a Cipher at most that and 31 octets of state, a Decipher at most that and 47 octets. And the objects forget: an AES with a key is the very same object as a new one with that key, whatever keys it had and blocks it saw before; a Cipher after any history is the very same object as a new one whose initialization vector is the last block of ciphertext, with the last key, fed with the incomplete block that is still pending; after flush nothing of the message is left in a Cipher, nor after a successful flush in a Decipher.", "quantifier": "all targets, keys, initialization vectors, messages, and all histories of calls with writes up to the size limit of an allocation", "why_tests_cant": "a test cannot inspect the object after every history; a leak of memory or an old key that is kept shows in no output", "anchors": ["src/aes.rs: AES, AES::init", "src/aes_cbc.rs: Cipher, Decipher", "src/pkcs7.rs: Pad, Unpad", "src/sha256.rs: SHA256", "src/hmac.rs: HMac"]}
{"id": "C98", "title": "How much one write can take", "statement": "A Cipher gathers the octets of a write, with the incomplete block pending from before, in a vector that the standard library grows by doubling. So with pointers of w bits a write of a Cipher returns (its results those of CBC) exactly when pending and written octets together are at most 2^(w-2), a quarter of the address space, and otherwise panics over the capacity; a Decipher also gathers the decrypted octets with the block it holds back, and that sum has the same limit. However the vectors grow, nothing else is different: a session returns what CBC says or panics over the capacity, and never panics where all sums are within the limit. The room that a large write needed stays with the object, at most twice the largest sum, and flush does not give it back. The vector in which scrypt collects its lanes grows the same way: where C16 promises the key of RFC 7914 derive returns it, and in general derive panics over the capacity exactly when the lanes take more than 2^(w-2) octets.", "quantifier": "all targets, initialization vectors and histories of init, write and flush; all passphrases, salts and parameters of scrypt; all policies by which a vector may grow (and the one of the standard library for the exact limits)", "why_tests_cant": "a test would have to write more than a gigabyte, on a 32-bit target, and after every history", "anchors": ["src/pkcs7.rs: Pad::write, Pad::flush, Unpad::write, Unpad::flush", "src/aes_cbc.rs: Cipher::write, Decipher::write", "src/scrypt.rs: Scrypt::derive"]}
{"id": "C99", "title": "Encrypt, then authenticate", "statement": "A message that is encrypted by a Cipher with a fresh random initialization vector, and whose initialization vector and ciphertext are then authenticated by an HMac with an independent key, stays secret even from an attacker who may submit boxes of their own to a recipient who checks the tag, decrypts, and tells everything that comes out. The attacker, who has n blocks sealed and submits v boxes, each step chosen with the knowledge of the earlier ones, does not find out which of two messages of equal size was sealed each time, up to n * (n - 1) / 2^128 + v / 2^255 and the advantages of distinguishers, made from the attacker, of AES and of HMAC from random functions. The recipient of a box that was not tampered with gets the message. The initialization vector has to be authenticated too: with a tag of the ciphertext alone an attacker with one box always finds out.", "quantifier": "all attackers, targets, key sizes, distributions of the key of the HMac, messages and boxes, for the program read from the files of /repo/src", "why_tests_cant": "a statement about all attackers and about probabilities over all keys and initialization vectors", "anchors": ["src/aes_cbc.rs: Cipher, Decipher", "src/hmac.rs: HMac", "src/aes.rs: AES"]}
{"id": "C100", "title": "Messages under a password", "statement": "Two keys are derived from a secret password and a public salt, by pbkdf2_sha256 or by Scrypt::derive, one for a Cipher and one for an HMac, and messages are encrypted and then authenticated as in C99. An attacker who chooses messages and submits boxes of their own, as in C99, does not find out which of two messages was sealed each time, up to the bound of C99 for random keys, the advantages of distinguishers of HMAC keyed with the password from a random function, and for pbkdf2_sha256 with c iterations c * (2 * c - 1) / 2^255, for Scrypt twice the largest probability of one value of its mixing function, which does not count if the salt is not of p * 128 * r bytes. Who knows the password gets the message. Who guesses it finds out: an attacker with one box has at least the probability that their guess leads to the right keys, less the probability that wrong keys lead to the right tag.", "quantifier": "all attackers, distributions of passwords, salts, iteration counts, scrypt parameters for which there is memory, key sizes and targets, for the program read from the files of /repo/src", "why_tests_cant": "a statement about all attackers and about probabilities over all passwords and initialization vectors", "anchors": ["src/pbkdf2.rs: pbkdf2_sha256", "src/scrypt.rs: Scrypt::derive", "src/aes_cbc.rs: Cipher, Decipher", "src/hmac.rs: HMac"]}
{"id": "C101", "title": "Differences spread through AES", "statement": "When two different blocks are encrypted with the same key, the two calls of AES::encrypt look into the S-box with different bytes at least five times in any two consecutive rounds and at least 25 times in any four, hence at least 55 times among all 160 lookups with a key of 16 bytes, 75 of 192 with 24 and 80 of 224 with 32. If the blocks differ in one byte only, exactly one lookup of the first round differs, exactly four of the second, and all 16 of the third. The same holds for AES::decrypt and the inverse S-box.", "quantifier": "all keys of the three sizes, all pairs of different blocks, all windows of rounds, both directions, both widths of usize, overflow checks on and off", "why_tests_cant": "2^128 blocks and 2^256 keys; a test sees the spread of a few differences only, and a mixing step with one weak coefficient passes a round trip", "anchors": ["src/aes.rs: AES::encrypt, AES::decrypt, mix_column, shift_rows, sub_bytes, mul, double, SBOX, INV_SBOX"]}
{"id": "C102", "title": "How long a key lasts", "statement": "Two equal ciphertext blocks under one key reveal the xor of two plaintext blocks: it is the xor of the two blocks (iv or ciphertext) before them. With any one key and a fresh random iv for each of n messages, the chance that two of the n ciphertexts begin with the same block is exactly 1 - (1 - 1/2^128)(1 - 2/2^128)...(1 - (n-1)/2^128), whatever the messages are and even if each is chosen after seeing the earlier ciphertexts. For n up to 2^64 this lies between s - s^2/2 and s = n(n-1)/2^129: more than a third for 2^64 messages, less than 1/2^64 for 2^32. Conversely, as long as all messages under one random key have n blocks altogether, any two blocks of all ciphertexts are equal with chance at most n(n-1)/2^128, plus the advantage of a distinguisher with n questions for AES.", "quantifier": "all keys, all numbers of messages, all ways of choosing messages depending on the earlier ciphertexts, all divisions into writes, all pairs of blocks", "why_tests_cant": "events of chance 2^-60 do not occur in a test, and the claim ranges over all strategies of choosing messages", "anchors": ["src/aes_cbc.rs: Cipher::new, Cipher::init, Cipher::write, Cipher::flush", "src/aes.rs: AES::encrypt"]}
{"id": "C103", "title": "A box belongs to one password", "statement": "If two keys derived by Scrypt::derive, with any parameters, passwords and salts, agree in 32 octets at multiples of 32, then the positions are the same and the passwords are the same up to the zeros and hashes of C46, or the computations of these octets contain a collision of the compression function of SHA-256. For pbkdf2_sha256 with one iteration the salts are the same, too. A box sealed as in C100 with 32 octets of derived key for the Cipher and 32 for the HMac that is not refused under either of two passwords shows that the passwords are the same in this sense, or the computations of its tags or of the keys contain such a collision.", "quantifier": "all passwords, salts, parameters of scrypt, sizes of derived keys, boxes; both widths of usize", "why_tests_cant": "it is about pairs of all passwords and all boxes an attacker may make up; a test cannot even exhibit the exceptional case", "anchors": ["src/scrypt.rs: Scrypt::derive", "src/pbkdf2.rs: pbkdf2_sha256", "src/hmac.rs: HMac", "src/aes_cbc.rs: Decipher"]}
{"id": "C104", "title": "How much memory scrypt takes", "statement": "At its peak a call Scrypt::new(r, n, p).derive(..) that returns a key holds exactly 128*r*(n+2p+2) octets of lanes and saved states, n + 2r(n+p+2) + p headers of vectors (2p in place of p with a standard library that does not collect in place), and 64 + max(64, 3r headers) bytes of working memory on the heap, if 3p <= n+2; with more lanes at least as much, and at most the larger of this and what joining the lanes takes. It is never less than 128*r*n. When the call returns, everything is given back; a call that refuses its parameters takes nothing. It does not depend on passphrase, salt or output.", "quantifier": "all parameters with 128*r*p octets allocatable, passphrases, salts, outputs, initial heaps; both widths of usize, with and without overflow checks; every way in which vectors grow, in place or not", "why_tests_cant": "the parameters and inputs are unbounded, and a test would need an instrumented allocator and terabytes of memory", "anchors": ["src/scrypt.rs: Scrypt::derive, Scrypt::ro_mix, Scrypt::block_mix, block_xor"]}
{"id": "C105", "title": "How much memory a Cipher and a Decipher take", "statement": "Over any history of init, write and flush in which no write has more than n octets, whatever the number of calls and whether they succeed or fail, a Cipher takes at most 4n + 512 bytes on the heap at any time and at most 2n + 272 between calls, if the caller drops what each call returns; a Decipher takes at most 7n + 576 at any time and at most 4n + 334 between calls. Each keeps at least the room of the longest write so far. Initialising again does not keep the old round keys. When the object is dropped, everything is given back.", "quantifier": "all histories of calls on one object, keys of any length, chunkings, IVs, initial heaps, both widths of usize, every way in which vectors grow", "why_tests_cant": "histories are unbounded; a leak or a growth of a few bytes per call shows only in the long run, and only with an instrumented allocator", "anchors": ["src/aes_cbc.rs: Cipher, Decipher", "src/pkcs7.rs: Pad, Unpad", "src/aes.rs: AES::init"]}
{"id": "C106", "title": "Many salts under one password", "statement": "As in C100, keys for a Cipher and an HMac are derived from one secret password, by pbkdf2_sha256 or by a Scrypt, but every box has a salt of its own, from which its keys are derived. An attacker may choose the salts, have one of two messages of its choice sealed with each, and have boxes of its own opened with any salts, also boxes moved from one salt to another, all depending on what it has seen. With at most q boxes sealed and v submitted it does not find out which messages were sealed, up to the sum over the salts of the bounds of C99 for random keys, and the advantages of distinguishers, made from the attacker, of HMAC with the password from a random function, plus N(N-1)/2^256 for the N = 2c(q+v) iterations of pbkdf2_sha256, or s(3s-1) times the largest share of one value of scrypt's mixing function for s = q+v salts; s(s-1) times it, if no salt is of p * 128 * r bytes.", "quantifier": "all attackers (adaptive), distributions of the password, salts, numbers of iterations, parameters of scrypt, key sizes, both widths of usize", "why_tests_cant": "attackers cannot be enumerated; a box accepted under a wrong salt or keys that repeat between salts show up only for particular salts", "anchors": ["src/pbkdf2.rs: pbkdf2_sha256", "src/scrypt.rs: Scrypt", "src/aes_cbc.rs: Cipher, Decipher", "src/hmac.rs: HMac"]}
{"id": "C107", "title": "A change is seen in all the ciphertext that follows", "statement": "If a message is changed inside one block of 16 bytes, in as little as one bit, and both are encrypted with the same key and iv, in any pieces, then the ciphertexts have the same length, agree in all blocks before that one, and differ in that one and in every block after it, to the end. The same message under two ivs gives ciphertexts that differ in every block. In general, where two messages agree, a difference between the ciphertexts (same key, any ivs) neither goes away nor appears.", "quantifier": "all keys of the three sizes, ivs, messages, places and sizes of the change, and ways to cut the messages into writes", "why_tests_cant": "a coincidence far behind the change would show up only for particular messages and keys", "anchors": ["src/aes_cbc.rs: Cipher", "src/aes.rs: AES", "src/pkcs7.rs: PKCS7"]}
{"id": "C108", "title": "The iv is no secret, so it must not be the key", "statement": "Of the plaintext blocks that a Decipher gives out before flush, two have as their xor the xor of the blocks before them in the ciphertext (the iv, for the first) exactly if their ciphertext blocks are equal. So whoever has one ciphertext c, sixteen zeros, c again and at least 16 more bytes decrypted, for any c, reads the iv off the answer, whatever the key is and whatever flush says; and if the same 16 bytes are used as key and as iv, the key.", "quantifier": "all keys of the three sizes, ivs, ciphertexts and ways to cut them into writes", "why_tests_cant": "holds for each of 2^128 ivs under each key", "anchors": ["src/aes_cbc.rs: Decipher", "src/aes.rs: AES"]}
{"id": "C109", "title": "PKCS#7 padding, as written in the source text", "statement": "In the program in the text, a Pad with any block size from 1 to 2^30 - 1 pads one message after the other, each written in any pieces: after every write the answers contain the complete blocks so far, no answer is an empty vector, and with the answer of flush they are the padded message. An Unpad with a block size from 1 to 255 holds back the last block, refuses nothing at all and incomplete blocks as UnfinishedBlock, takes off v bytes if the last v bytes are v and v is at most the block size, and answers InvalidPadding if not. Padded messages, one after the other and cut in any way, come back from one Unpad.", "quantifier": "all block sizes in these ranges, sequences of messages, byte strings, ways to cut them into writes, both widths of usize, with and without overflow checks", "why_tests_cant": "unbounded messages, sequences and fragmentations, for every block size", "anchors": ["src/pkcs7.rs: Pad, Unpad"]}
{"id": "C110", "title": "Iterations and salts slow down the search for passwords", "statement": "An attacker has the keys that pbkdf2_sha256 derived for several users, each with a salt of their own and at least c iterations, and evaluates HMAC itself Q times. If HMAC is a random function of the 64 octets it makes of its key, and of the message, then the attacker finds out no more about the passwords than with random keys and Q / c guesses, each of one user and one password, up to n(2n + Q) / 2^256 where n is the number of iterations for all keys. It names the password of some user with a probability of at most Q / c + 1 times that of the most likely password. There is no shortcut: even who knows the password and the salt cannot tell the key from a random one with fewer than c evaluations. The price is exact: trying guesses one after the other succeeds with c evaluations each. If the salts are the same, c evaluations try a password for all users at once.", "quantifier": "all attackers, adaptive in any way and without bound on their computation, all numbers of users, requests with different salts, any distribution of the passwords, also dependent ones, all numbers of evaluations", "why_tests_cant": "a claim on all attackers and a random function", "anchors": ["src/pbkdf2.rs: pbkdf2_sha256", "src/hmac.rs: HMac"]}
{"id": "C111", "title": "With scrypt, every password tried costs 4*r*N*p evaluations of the Salsa20/8 core", "statement": "An attacker has the keys that Scrypt derived for several users, each with a salt of their own, and evaluates HMAC h times and the Salsa20/8 core c times. If both are random functions, then the attacker finds out no more about the passwords than with random keys and c / (4*r*N*p) guesses, each of one user and one password, up to N*S*(2*S + h + c) / 2^512 where S is about the number of evaluations for all users and all passwords they may have. It names the password of some user with a probability of at most c / (4*r*N*p) + 1 times that of the most likely password. There is no shortcut: even who knows the password and the salt cannot tell the key from a random one with fewer than 4*r*N*p evaluations of the core. The price is exact: trying guesses one after the other succeeds with 4*r*N*p evaluations each.", "quantifier": "all attackers, adaptive in any way and without bound on their computation, all parameters r, N, p that RFC 7914 allows, all numbers of users, requests with different salts, any distribution of the passwords on a finite set, also dependent ones, all numbers of evaluations", "why_tests_cant": "a claim on all attackers and random functions", "anchors": ["src/scrypt.rs: Scrypt::derive", "src/scrypt.rs: block_mix, ro_mix", "src/salsa20.rs: salsa20", "src/pbkdf2.rs: pbkdf2_sha256"]}
{"id": "C112", "title": "Not keeping the table of scrypt has its price", "statement": "Scrypt fills a table of N entries of 128*r octets, each made of the one before by scryptBlockMix, and then looks up entries. Let someone keep M octets only, which may depend on the whole table in any way, and find n of its entries, each one looked for by itself. If scryptBlockMix is a random function, then this takes no less than n*(n/p - 1)/2 evaluations of it altogether, where p is about the number of entries that M octets can hold, M + 8 <= p*(128*r - 17), except with a probability of 1/2^63. So with the k-th part of the memory, an entry takes (k - 1)/2 evaluations on average. This is exact: keeping every k-th entry does it.", "quantifier": "all r, N, M, all algorithms with up to q evaluations for an entry, where N*(q + 1) <= 2^64, all functions from the table to what is kept, the entries found being any number of them", "why_tests_cant": "a claim on all algorithms and random functions", "anchors": ["src/scrypt.rs: ro_mix", "src/scrypt.rs: block_mix", "src/scrypt.rs: integerify", "src/scrypt.rs: Scrypt::derive"]}
{"id": "C113", "title": "scrypt in little memory takes much longer", "statement": "Let a machine carry out the mixing of scrypt (scryptROMix) in steps, and keep no more than M octets from one step to the next. In each step it may evaluate scryptBlockMix many times in parallel, and it may do what it likes in between. If scryptBlockMix is a random function, then the machine does not have the result after about N^2/(16*p) steps, where p is about the number of entries of 128*r octets that M octets can hold, M + 26 <= p*(128*r - 17), except with a probability of 1/2^(N/2) + 1/2^64, as long as there are no more than 2^64 evaluations. So time and memory together are at least about N^2 for everyone, whatever is kept, and parallel evaluations do not help. This is right up to a constant: keeping every k-th entry of the table, p of them, gives the result after N + N^2/p steps of one evaluation.", "quantifier": "all machines, for which the memory is any finite set and the next evaluations any function of it, all numbers of parallel evaluations, all M, r, all N that are powers of two, all numbers of steps", "why_tests_cant": "a claim on all machines and random functions", "anchors": ["src/scrypt.rs: ro_mix", "src/scrypt.rs: integerify", "src/scrypt.rs: block_mix", "src/scrypt.rs: Scrypt::derive"]}
{"id": "C114", "title": "With scrypt, memory is needed nearly all the time", "statement": "Let a machine carry out the mixing of scrypt (scryptROMix) in steps, with as much memory as it likes, and more in some steps than in others. In each step it may evaluate scryptBlockMix many times in parallel, and it may do what it likes in between. Add up the number of octets kept, and one entry of 128*r octets, over all steps. If scryptBlockMix is a random function, then a machine that has the result has spent at least about 128*r*N^2/48 octets times steps, more exactly (128*r - 17)*N*(N - 130)/48, except with a probability of 1/2^(N/2) + 1/2^64, as long as there are no more than 2^64 evaluations. So nobody can have many guesses share the memory, each needing it for a short time only. This is right up to a constant: the usual way, with the whole table, spends about 2*N^2 entries times steps, and keeping fewer entries about N^2.", "quantifier": "all machines, for which the memory is any list of octets and the next evaluations any function of it, all numbers of parallel evaluations, all r, all N that are powers of two, all numbers of steps", "why_tests_cant": "a claim on all machines and random functions", "anchors": ["src/scrypt.rs: ro_mix", "src/scrypt.rs: integerify", "src/scrypt.rs: block_mix", "src/scrypt.rs: Scrypt::derive"]}
{"id": "C115", "title": "A few collisions give many messages with one digest", "statement": "k searches for a collision of the compression function of SHA-256, each started with the hash value where the one before it ended, give 2^k different messages with one digest, not only 2*k: the messages have any common beginning of whole blocks and any common end, and between them one of two blocks at each of k places. Therefore taking the digest of SHA256 together with the value of any other hash function of n bits protects against collisions not much better than the better of the two: among the messages from n + 1 searches there are two on which both agree.", "quantifier": "all ways to search, all k within the length limit, all beginnings and ends, all ways to cut the messages into pieces, all other functions", "why_tests_cant": "a claim on all ways to search and on 2^k messages each", "anchors": ["src/sha256.rs: SHA256::update", "src/sha256.rs: SHA256::digest", "src/sha256.rs: process_block"]}
{"id": "C116", "title": "A part of the key schedule as long as the key is as good as the key", "statement": "An AES object with a key keeps the key schedule in memory. Whoever learns as many octets of it as the key has, beginning with any word, can compute the key: with a key of 16 octets any one round key is enough, with 24 or 32 octets any two that follow each other. Fewer octets of such a part leave the key open: all values of that part of the memory are possible, each with exactly one key.", "quantifier": "all keys of the three sizes, all places in the key schedule, all values of the memory there, all states of the object before init", "why_tests_cant": "a claim on all keys and on all contents of the memory, 2^128 and more", "anchors": ["src/aes.rs: AES::init", "src/aes.rs: expand_key"]}
{"id": "C117", "title": "A collision of digests under an unknown key gives forgeries", "statement": "Who finds two messages of the same number of whole blocks with equal digests of an HMac, for a key that they do not know, can forge from then on: the digest of the one message followed by anything is the digest of the other followed by the same. So the number of digests under one key has to stay far below 2^128. The only exceptions are digests that are equal because of a collision of the compression function on one block: on the padding that ends the inner hash, or on the block with the digest of the inner hash.", "quantifier": "all keys, all pairs of messages of the same number of whole blocks, all continuations within the length limit, all ways to cut them into pieces", "why_tests_cant": "a claim on all keys and all continuations", "anchors": ["src/hmac.rs: HMac::new", "src/hmac.rs: HMac::update", "src/hmac.rs: HMac::digest"]}
{"id": "C118", "title": "How a difference goes through AES cannot be foretold", "statement": "Two different blocks are encrypted with the same round keys, and for every round it is foretold by which value each of the 16 bytes that AES looks up in the S-box will differ between the two. If the round keys are random, the probability that all of this comes true is at most 2^-6 for every byte that is to differ in a round before the last, whatever the blocks and the prediction are: at most 2^-150 for any four rounds, 2^-306 for all lookups with 10 rounds, 2^-336 with 12 and 2^-456 with 14. The reason is that for two bytes with a given difference, not zero, a given difference of their images under the S-box is right for at most four of 256 bytes.", "quantifier": "all pairs of different blocks, all predictions of the differences, all numbers of rounds; the probability is over round keys that are independent and uniformly random", "why_tests_cant": "a claim on the probability over 2^1280 and more choices of round keys, for every prediction; the best prediction cannot be found by a search", "anchors": ["src/aes.rs: AES::encrypt, sub_bytes, lookup_sbox, shift_rows, mix_column, SBOX"]}
{"id": "C119", "title": "No linear equation holds for AES much more often than by chance", "statement": "Take any equation that is linear in the bits (an exclusive-or of bits is 0, or is 1) between the block that encrypt returns, the block that it was given and the round keys. If the round keys are random, then for every block the probability that the equation is true differs from 1/2 by at most 2^-166 with 10 rounds, 2^-226 with 12 and 2^-241 with 14, and in general by at most 2^-76 for four rounds, 2^-151 for eight and so on. The only exception is the equation in which nothing but the given block occurs. The reason is that any such equation between a byte and its image under the S-box is true for 112 to 144 of the 256 bytes.", "quantifier": "all blocks, all linear functions of the result and of each of the round keys, all numbers of rounds; the probability is over round keys that are independent and uniformly random", "why_tests_cant": "a claim on the probability over 2^1408 and more choices of round keys, for each of 2^1536 and more equations", "anchors": ["src/aes.rs: AES::encrypt, sub_bytes, lookup_sbox, shift_rows, mix_column, add_round_key, SBOX"]}
{"id": "C120", "title": "Each block leaves exactly one SHA-256 hash value as it is", "statement": "For every block of 64 bytes there is exactly one hash value that the compression function maps to itself with this block, and it is found at once, by undoing the 64 rounds. A SHA256 between two blocks keeps its hash value when it gets such a block, in any pieces, and otherwise changes it; only the count of bytes always grows. So when a message is continued with one block again and again, the hash value stays the same for ever or changes with the first repetition already.", "quantifier": "all blocks, all hash values, all objects between two blocks, all ways to cut the block into pieces, all messages of whole blocks, all numbers of repetitions, both word sizes", "why_tests_cant": "a claim on all 2^256 hash values for each of 2^512 blocks", "anchors": ["src/sha256.rs: SHA256::update, SHA256::process_block"]}
{"id": "C121", "title": "With every key, AES is an even permutation", "statement": "After a successful init, whatever the key is, encrypt is a permutation of the 2^128 blocks that is made of an even number of exchanges of two blocks, and decrypt is its inverse; the same is true for all round keys. Only half of all permutations of the blocks are of this kind. So two keys, of the same length or not, never differ in one or two blocks only: when some block is encrypted differently with them, then at least three blocks are, and who knows the encryptions of all blocks but two knows these two as well.", "quantifier": "all keys of 16, 24 and 32 bytes, all pairs of keys, all round keys, all 2^128 blocks", "why_tests_cant": "a claim on a permutation of 2^128 blocks as a whole, for each of 2^256 and more keys", "anchors": ["src/aes.rs: AES::init, AES::encrypt, AES::decrypt, sub_bytes, shift_rows, mix_columns, add_round_key"]}
{"id": "C122", "title": "With one salt, other iteration counts do not give independent keys", "statement": "Take the keys that pbkdf2_sha256 derives from one password and one salt with c, c+1, c+d and c+d+1 iterations. For each whole part of 32 bytes, the exclusive or of the first two keys, put through HMac with the password d times, is the exclusive or of the last two. So three keys derived with c, c+1 and c+2 iterations allow passwords to be tested with one HMac, of 4 compressions, in place of c of them: the password passes, and every password that passes derives the same keys from all salts, or shows a collision of SHA-256.", "quantifier": "all passwords and salts within the length limits, all iteration counts from 1, all distances d, all lengths of the three or four keys, all parts, all passwords that are tried, both word sizes", "why_tests_cant": "a relation between the results for all passwords, salts and counts; a test has a few of them", "anchors": ["src/pbkdf2.rs: pbkdf2_sha256", "src/hmac.rs: HMac::new, HMac::update, HMac::digest"]}
{"id": "C123", "title": "The last block of a ciphertext does not authenticate the message", "statement": "The answer of Cipher's flush, or the whole ciphertext, must not be used as a check value. Whoever can choose the iv gets the same ciphertext for another message of the same length: both ivs are added to its first block. With one fixed iv, from two messages and the last block of the first one's ciphertext, and without the key, follows a third message that is neither of them: its ciphertext is the two ciphertexts put together, so flush gives the answer it gave for the second message. Decipher opens the two ciphertexts, put together, as this third message.", "quantifier": "all keys of the three sizes, all ivs, all messages (at least 16 bytes where the first block is changed), all ways to cut messages and ciphertexts into pieces, both word sizes, with and without overflow checks", "why_tests_cant": "a statement about all messages, keys and ivs, and about ciphertexts that are related; a test has a few of them", "anchors": ["src/aes_cbc.rs: Cipher::new, Cipher::init, Cipher::write, Cipher::flush, Decipher::new, Decipher::init, Decipher::write, Decipher::flush"]}
{"id": "C124", "title": "Blocks of ciphertexts can be put together anew", "statement": "Take 16-byte blocks from any ciphertexts that Ciphers made with one key, in any order, some of them several times. A Decipher with that key and any iv decrypts them to what someone without the key can compute from the messages and the ciphertexts: each message block, with the exclusive or of the block that it came after and the block that it comes after now. The Decipher accepts them whenever the last block is the last block of a ciphertext and comes after the same block as there, whatever stands before.", "quantifier": "all keys of the three sizes, all ivs, all messages and ciphertexts, all selections and orders of blocks, all pieces, both word sizes, with and without overflow checks", "why_tests_cant": "a statement about all arrangements of blocks of all ciphertexts; a test has a few of them", "anchors": ["src/aes_cbc.rs: Cipher::write, Cipher::flush, Decipher::write, Decipher::flush", "src/pkcs7.rs: Unpad::flush"]}
{"id": "C125", "title": "How hard shortened digests are to forge", "statement": "Only the first t bytes of an HMac digest are sent and checked. A forger that has messages of its choice authenticated and then names another message and t bytes succeeds with probability at most 2^(-8t) and what the same forger, as a distinguisher with one query more, achieves against HMAC with that key as a random function. With up to v attempts it is v times 2^(-8t) and the sum of v such advantages. This is about what a forger can have: with every key, 2^(8t) attempts, without any message that was authenticated, are enough.", "quantifier": "all lengths t up to 32, all forgers, all distributions of the key, all ways to cut messages, all targets", "why_tests_cant": "a statement about probabilities and about all strategies", "anchors": ["src/hmac.rs: HMac::new, HMac::update, HMac::digest"]}
{"id": "C126", "title": "Encrypting twice with two keys is little better than once", "statement": "A block p is encrypted by AES with one key and the result with another, which gives c. Of all keys that are possible for the first step and all that are possible for the second, a strategy that knows p and c finds exactly the pairs of keys that lead from p to c, and encrypts or decrypts one block for each key: the numbers of keys are added, not multiplied.", "quantifier": "all lists of keys of the three sizes, all blocks p and c, both word sizes, with and without overflow checks", "why_tests_cant": "a statement about all keys and blocks and about the work of a strategy", "anchors": ["src/aes.rs: AES::new, AES::init, AES::encrypt, AES::decrypt"]}
{"id": "C127", "title": "Collisions of shortened digests need no memory", "statement": "Only the first t bytes of SHA256's digests are used, t being any number up to 32. Started with any message whose length is not t, a search that keeps two strings besides the start always ends with two different messages whose digests begin with the same t bytes, after at most 5 * 2^(8t) digests.", "quantifier": "all lengths t up to 32, all messages within the length limit as a start, both word sizes, with and without overflow checks", "why_tests_cant": "the search is too long to run for any useful t, and a run is about one start", "anchors": ["src/sha256.rs: SHA256::new, SHA256::update, SHA256::digest"]}
{"id": "C128", "title": "One part of a long derived key is enough to test passwords", "statement": "Each whole part of 32 bytes of a key that pbkdf2_sha256 derives can be computed without the other parts, with HMac alone. To derive the key takes as many times more SHA-256 compressions than one part as the key has parts, the last one, if shorter, counted as a whole one. So longer keys slow down the owner, but not someone who tests passwords against one part.", "quantifier": "all passwords, salts and key lengths within the limits, all iteration counts from 1, all whole parts, both word sizes, with and without overflow checks", "why_tests_cant": "the equality and the ratio are claimed for every iteration count and key length", "anchors": ["src/pbkdf2.rs: pbkdf2_sha256", "src/hmac.rs: HMac::new, HMac::update, HMac::digest"]}
{"id": "C129", "title": "Which error a call can give", "statement": "After any history of calls on a Cipher or a Decipher: init fails exactly for keys that are not 16, 24 or 32 bytes long; once a key has been accepted, write never fails, flush of a Cipher never fails, and flush of a Decipher fails only with an error of the padding; before that no byte is given out and the error is the one for a missing key (or, for flush of a Decipher, for a missing block). Comparing errors by == or by their {:?} texts tells each from every other one of its type.", "quantifier": "all histories of calls, including failed ones, all further calls, all ivs, both word sizes, with and without overflow checks; all errors", "why_tests_cant": "a caller who matches on some errors only relies on the others never coming, in any history", "anchors": ["src/aes_cbc.rs: Cipher, Decipher, DecipherError", "src/aes.rs: AESError", "src/pkcs7.rs: UnpadError", "src/scrypt.rs: ScryptError"]}
{"id": "C130", "title": "A Cipher after a caught panic", "statement": "A write that gathers more than 2^(w-2) octets (w the pointer width) panics; the panic can be caught and the Cipher used again. All its further answers and panics are those of CBC with a buffer of 2^(w-2) octets, which the write has filled. So after an empty write and flush, the ciphertext is that of the first 2^(w-2) octets and the rest is missing, without an error. Flush directly after it panics: with overflow checks as often as it is tried; without them it empties the buffer first, and the Cipher then works as if the large write had never been.", "quantifier": "all histories of init, write and flush that go on after panics, all ivs, both word sizes, with and without overflow checks", "why_tests_cant": "the first panic takes a gigabyte on a 32-bit target, and cannot be brought about on a 64-bit one; what follows is claimed for all histories", "anchors": ["src/aes_cbc.rs: Cipher::write, Cipher::flush, Cipher::init", "src/pkcs7.rs: Pad::write, Pad::flush"]}
{"id": "C131", "title": "A Decipher after a caught panic", "statement": "A write that gathers more than 2^(w-2) octets of ciphertext (w the pointer width), or of plaintext not yet given out, panics; the panic can be caught and the Decipher used again. All its further answers and panics are those of CBC with two buffers of 2^(w-2) octets, which the write has filled as far as they go. So after a panic from too much ciphertext and an empty write, everything goes on as if the first 2^(w-2) octets had been the whole write, without an error. After a panic from too much plaintext the Decipher never gives out a byte again, whatever is called, and each flush fails with UnfinishedBlock.", "quantifier": "all histories of init, write and flush that go on after panics, all ivs, both word sizes, with and without overflow checks", "why_tests_cant": "the first panic takes a gigabyte on a 32-bit target, and cannot be brought about on a 64-bit one; what follows is claimed for all histories", "anchors": ["src/aes_cbc.rs: Decipher::write, Decipher::flush, Decipher::init", "src/pkcs7.rs: Pad::write, Unpad::write, Unpad::flush"]}
{"id": "C132", "title": "Ciphertexts that were cut off", "statement": "A Decipher is given, in any pieces, only the first n bytes of what a Cipher made of a message, at least a byte less than all. It has the message's blocks that are still whole. If there is none, flush fails with UnfinishedBlock. Otherwise flush fails with InvalidPadding or accepts, depending only on whether these blocks end in v bytes of value v, v up to 16: then they are returned without these bytes as if they were the message. So, wherever a block of the message ends in a zero byte, the ciphertext can be cut off in the next block, and the message up to that byte is returned without an error. If all bytes of the message are greater than 16, as in printable text, every cut is noticed.", "quantifier": "all keys of the three sizes, ivs, messages, all places of the cut, all fragmentations, both word sizes, with and without overflow checks", "why_tests_cant": "the places and messages for which a cut goes unnoticed are a matter of all messages and lengths", "anchors": ["src/aes_cbc.rs: Decipher::write, Decipher::flush, Cipher::write, Cipher::flush", "src/pkcs7.rs: Unpad::write, Unpad::flush"]}
{"id": "C133", "title": "A message that was rejected spoils the next one", "statement": "A Decipher gets, in any pieces, whole blocks whose padding is wrong, so that flush fails with InvalidPadding. The sender's next message, whose iv is the last of these blocks as usual, follows on the same Decipher, in any pieces. Its flush succeeds, but what comes out for it is a block of the rejected message and then the message. Only a new Decipher with that block as its iv returns the message as it is.", "quantifier": "all keys of the three sizes, ivs, rejected blocks, next messages, fragmentations of both, both word sizes, with and without overflow checks", "why_tests_cant": "what a second message looks like after a failure depends on the whole history before it; the tests make a new object each time", "anchors": ["src/aes_cbc.rs: Decipher::write, Decipher::flush", "src/pkcs7.rs: Unpad::write, Unpad::flush"]}
{"id": "C134", "title": "One encryption shows the key to an observer of cache lines", "statement": "An observer sees one call of AES::encrypt, not init. Of each index into a table they see only the line it falls into, where a line holds n entries. If two such calls look the same, then block and key, added byte by byte, fall into the same lines, for each of the first 16 bytes of the key. With one known block and lines of 2^m entries, all but the last m bits of each of these bytes are therefore seen; with whole indices, the whole key is, whatever its size. One call of AES::decrypt with a known block shows the whole key as well to an observer of whole indices.", "quantifier": "all pairs of keys of the three sizes, all pairs of blocks, all line sizes, both word sizes, with and without overflow checks", "why_tests_cant": "a test does not observe which entries of a table are read, and the claim compares all pairs of keys", "anchors": ["src/aes.rs: AES::encrypt, AESEncrypt::sub_bytes, AESEncrypt::lookup_sbox, AESEncrypt::add_round_key, AES::init", "src/aes.rs: AES::decrypt, AESDecrypt::shift_rows, AESDecrypt::sub_bytes"]}
{"id": "C135", "title": "Bytes after the end of a ciphertext belong to the next message", "statement": "A Decipher gets, in any pieces, the ciphertext of a message and then fewer than 16 further bytes, and flush is called. The message is returned and nothing tells of the bytes. They are kept: what is written up to the next flush is decrypted as if it had begun with them, with the last block of the first ciphertext as its iv, and the outcome is exactly that of these bytes. So stray bytes shift the next message; but if they are the first bytes of the next ciphertext, both messages are returned.", "quantifier": "all keys of the three sizes, ivs, first messages, further bytes, continuations, fragmentations of both, both word sizes, with and without overflow checks", "why_tests_cant": "the effect shows only in a later message, and depends on all that came before; the tests make a new object for each message", "anchors": ["src/aes_cbc.rs: Decipher::write, Decipher::flush", "src/pkcs7.rs: Pad::write, Unpad::flush"]}
{"id": "C136", "title": "Tests alone show the key", "statement": "An observer sees nothing of the tables, only the outcomes of the tests (if, while, match) during calls of AES::encrypt, not init. If all outcomes are the same in two encryptions, then for each of the first 16 bytes the two highest bits of the S-box's value at block plus key are the same. The encryptions of the 256 blocks of 16 equal bytes therefore show the first 16 bytes of the key: keys for which all of them look the same agree there. Protecting the tables alone would not be enough.", "quantifier": "all pairs of keys of the three sizes, all pairs of blocks, both word sizes, with and without overflow checks", "why_tests_cant": "a test does not observe the outcomes of inner tests, and the claim compares all pairs of keys", "anchors": ["src/aes.rs: double, mul, AESEncrypt::mix_column, AES::encrypt"]}
{"id": "C137", "title": "Who has seen scrypt at work can try passwords cheaply", "statement": "From one execution of Scrypt::derive the observer of C72 learns, for every part of B, which entry of the table is read first. To know that entry for another passphrase takes 4*r evaluations of HMAC and 2*r*n of the Salsa20/8 core, one part in 2*p of the price of C111, and no table: one value of 128*r octets is kept at a time. The derived key need not be known. If HMAC and the core are taken for random functions, a wrong passphrase passes this trial with a probability of at most 1/n and a small term.", "quantifier": "all targets, all accepted parameters within memory, all passphrases, salts and buffers; all pairs of passwords of which HMAC makes different blocks", "why_tests_cant": "the claim is about what can be computed from all executions, and about a probability over all functions", "anchors": ["src/scrypt.rs: Scrypt::derive, ro_mix, integerify", "src/pbkdf2.rs: pbkdf2"]}
