# Formal model of derivepass/dumb-crypto in Lean 4

## Layout

| directory | contents |
|---|---|
| `lean/Verif/Rust.lean` | the fragment of Rust semantics used: panics, `usize` arithmetic for 32/64-bit targets with overflow checks on/off, slices, loops |
| `lean/Verif/Model/*.lean` | the model, one file per Rust source file, function by function, every definition citing `/repo/src` lines |
| `lean/Verif/Spec/*.lean` | independent specifications written from the standards (FIPS 180-4, RFC 2104, RFC 2898, Bernstein's Salsa20 spec, RFC 7914, FIPS-197, SP 800-38A CBC, PKCS#7); they do not import the model |
| `lean/Verif/Proof/*.lean` | helper lemmas |
| `lean/Verif/Source/*.lean` | the program text: `Syntax` (abstract syntax of the Rust fragment), `Gen/*` (the functions of `/repo/src`, generated by `tools/rust2lean.py`, each with its Rust text in the comment), `Semantics` (interpreter), `Refine/*` (each function evaluates to its model), `Api` (histories of method calls) |
| `lean/Verif/Text/*.lean` | the files of `/repo/src` as text, and a front end for the Rust fragment: lexer, parser, name resolution, macro expansion, types of literals (C86) |
| `lean/Verif/Props/*.lean` | the property theorems, with non-vacuity examples beside them |
| `lean/Verif/Tests/*.lean` | the repository's own unit tests and README example run on the model by `#guard`, that is by Lean's interpreter. They test the model's faithfulness; they prove nothing and no theorem depends on them |

## Modelling decisions

* A Rust function becomes a Lean function into `M α = Except Panic α`; `Panic` is an explicit value,
  so "does not panic" is a theorem and never an artefact of a totalised definition.
  In the hand model a panic ends the execution; what a panic leaves behind is the subject of C81-C83, on the source, and of C130 and C131.
* `&mut` parameters become returned values. A method returning `Result` and mutating `self` returns the pair of
  new state and result, so state after an error is visible.
* `u8`, `u32`, `u64` are `BitVec 8/32/64`. `usize` is a `Nat` handled by operations of a `Target`
  (pointer width 32 or 64, overflow checks on or off): an overflowing `+ - *` panics with checks on and wraps with checks off.
* `[T; N]` is `Vector T N`; slices and `Vec<T>` are `List T`. Indexing and slicing are checked and can panic.
* `for` loops are folds over the same ranges; `while` loops get the equivalent range or a sufficient fuel.
* Not modelled: running out of memory (allocation failure aborts; how much is asked for is in C104 and C105), timing below the level of the source (see C72), zeroisation of
  secrets. A `Vec` is its elements; `vec![0; n]` and `Vec::with_capacity(n)` panic where their size is over `isize::MAX`. The
  capacity of a `Vec` that grows by `push`, `append` or `collect` is in `Verif/Model/Growing.lean` only (C98): there, on a 32-bit
  target, a `write` of `Cipher` or `Decipher` that gathers more than 2^30 octets panics. The other claims about `write` are about
  smaller ones, which C98 makes precise: up to that limit, the model with capacities gives the same results.
* A Rust slice never exceeds `isize::MAX` bytes; where a proof needs it, it is an explicit hypothesis.

## Trusted base

* Lean 4.33.0's kernel.
* The axioms `propext`, `Classical.choice` and `Quot.sound`, and no others. `AXIOMS.txt` lists, for every theorem in
  `MANIFEST.json`, the ones it depends on, as printed by `#print axioms`.
* The readings of the standards in `Verif/Spec/*`.
* That the object the theorems speak of is the code. There are two routes from `/repo/src` to it:
  * C01-C61, C98, C104, C105, C107, C108, C115 to C117, C120, C121 (but for C121_program), C122 to C124, C126 to C133, C135 speak of `Verif/Rust.lean` and `Verif/Model/*`, written by hand from the source.
  * C62-C97, C99-C103, C106, C109, C118, C119, C125, C134, C136, C137, C110 to C114 (in C110_program and so on; C113_program in C114) speak of
    `Verif/Source/Gen/*` evaluated by `Verif/Source/Semantics.lean`. `tools/rust2lean.py` translated the source mechanically. It need not be trusted: `Verif/Text` has
    a second front end, written in Lean (lexer, parser, name and method resolution, macro expansion, inference of the types of
    integer literals), and C86 proves that it makes the same program of the text in `Verif/Text/Files.lean`. Trusted are that this
    file is a copy of `/repo/src` (`tools/text2lean.py` writes it; each line is a raw string literal), that the rules of the front
    end are those of Rust on this text, and the rules of the interpreter.
    The front end fails on any construct it does not know.

  The other theorems of C110 to C114 are about PBKDF2 and scrypt with random functions in the place of HMAC, of the
  Salsa20/8 core and of scryptBlockMix; the `_program` theorems say that these are the algorithms that the program carries out.
  Likewise the theorems of C118 and C119 on the S-box and on rounds are about `Spec/Trail.lean` and `Spec/Linear.lean`, which
  C118_program, C118_keys and C119_program find in the program text and C119_keys in the model.

  The refinement theorems (`Source/Refine`) tie the two together: a slip in the hand-written model that changes what a
  function returns contradicts them, unless the same slip is in the interpreter.
* The unit tests of the repository run on the model (`Verif/Tests`, by `#guard`) are evidence only. Four slow ones were run outside
  the build: the 80000-iteration PBKDF2 vector and the scrypt vectors with n = 16, 1024 and 16384 (the last two with the model
  compiled to machine code) agree. The scrypt vector with n = 2^20 was not run on the model.

## What is modelled and what is not

Modelled, function by function: all of `aes.rs`, `aes_cbc.rs`, `hmac.rs`, `pbkdf2.rs`, `pkcs7.rs`, `salsa20.rs`, `scrypt.rs`,
`sha256.rs` outside `#[cfg(test)]`, including the constant tables, the error types with their texts, `Default`; `common.rs`: the
macro `wrapping_sum!` and the test helper `hex_to_vec` (model only). `lib.rs` holds module declarations only.

Not modelled:

* `#[cfg(test)] mod tests` (their vectors are in `Verif/Tests`).
* `Error::source`/`cause`, which keep their default, and `{:#?}`. The derived `Debug` and `PartialEq` are in `Model/Derived.lean` only, not in the embedding.
* allocation failure; the growth of a `Vec` by `push` and `append`, except in C98; stack overflow (C70 bounds the call depth).
* the state left behind by a panic, except where C81-C83, C130 and C131 speak of it: the last two have a model of their own for `Cipher` and `Decipher`; for the others `Source/Unwind.lean` evaluates the generated source so that the
  variables survive a panic and `&mut` parameters are copied back; it agrees with `Semantics.lean` in everything else (`callU_erase`).
* time and caches, beyond the source-level observer of C72-C77, and whether secrets stay in memory.
* the compiler, and `unsafe` code in the standard library.

In the embedding, `&mut` arguments are copied in and copied back at the end of the call. This is exact for safe Rust, where a
mutable borrow is exclusive. A formatter is the text written so far, and writing to it does not fail.

## Wrong programs

`seeded/LOG.jsonl` records the edits tried against the theorems, made in a scratch copy and rebuilt. Each line names the definition,
the edit, the claim it breaks and the theorems that failed to check.

## Plan per property

| id | modelled | proof |
|---|---|---|
| C01-C04 | `sha256.rs` whole | refinement of the instance to an abstract machine (chaining value, pending bytes, total); induction over data and over call histories; digest theorem by matching the two padding branches with the FIPS padding |
| C05 | `K`, `H` | finite tables, `decide +kernel` against integer root definitions |
| C06-C07 | `hmac.rs` whole | from C01-C04 |
| C08-C11 | `pbkdf2.rs` whole | loop invariants over blocks and iterations; C11 also records that the code does not reject too long keys |
| C12-C15 | `salsa20.rs` whole | functional equality with spec; explicit inverse; equivariance under the top-bit mask |
| C16-C21 | `scrypt.rs` whole | refinement of block_mix/ro_mix/derive to the RFC; arithmetic of `usize` for validation and wrap-around. C18 is false of the code (n = 1 accepted): negation proved with witness, partial theorem kept |
| C22-C27 | `aes.rs` whole | functional equality with FIPS-197; GF(2^8) linearity; finite tables by `decide +kernel`; histories by induction |
| C28-C39, C43, C44 | `aes_cbc.rs`, `pkcs7.rs` whole | refinement of Cipher/Decipher to (iv, pending bytes); induction over writes. C33 and C34 are false of the code: negations with witnesses, partial theorems kept |
| C40 | `pkcs7.rs` | parametric in block size |
| C41 | `wrapping_sum!` | induction over arguments |
| C42 | error types and texts | case analysis over finite enumerations |
| C45 | `hmac.rs` histories | two never-reset abstract SHA-256 machines; induction over calls |
| C46 | passwords as HMAC keys | from C07, lifted through `pbkdf2_sha256` and `Scrypt::derive` as equality of outcomes |
| C47 | shape of the scrypt output | `derive` factors through a final PBKDF2 call; C09 |
| C48, C49 | Merkle-Damgård structure of `sha256.rs` | from C01; injectivity of padding and of the digest encoding. The collision of C49 is one inside the two computations at hand, since a bare existence statement would be trivially true |
| C50 | symmetries of `salsa20.rs` | from C12; equivariance of every quarter round layer |
| C51-C53, C56, C57 | AES-CBC in unusual use | from the session theorems (C28, C32) and the block equations of CBC |
| C54, C55 | arbitrary histories of `aes_cbc.rs` | step lemmas on the abstract machines of `Spec/CbcMachine`, transferred by the refinement of C43 |
| C58 | `hex_to_vec` in `common.rs` | induction over the text, two letters at a time |
| C59, C60 | every function, on two targets at once | a relation "panics, or returns the same" between the two runs, shown for every operation (`Proof/Mono`) |
| C61 | copies of the models that count calls of a primitive (`Model/Counted`) | a relation "erases to the model and costs exactly k", compositional over loops; the theorems state the erasure beside the count |
| C62-C69 | the program text itself: all 79 functions of the crate outside `cfg(test)`, translated to a deep embedding (`Source/Gen`) and evaluated by a big-step interpreter (`Source/Semantics`) | every function is shown to evaluate to what its model function returns (`Source/Refine`, theorems `src_*`), for all arguments; the end-to-end theorems then follow from C01-C45 |
| C70 | the same | from the same refinement theorems: the interpreter's bounds are universally quantified above 65 and 8 |
| C71 | `description` and `fmt` of the error types | evaluation of the text, case analysis over the error values |
| C72 | the program text, evaluated with a trace of what an observer sees (`Source/Leak`; `callT_erase`: same outcomes as `Source/Semantics`) | a checker of function bodies with labels for variables (`Source/Secrecy`), proved sound for pairs of evaluations by induction over expressions and call depth; the kernel evaluates the checker on the crate |
| C73 | the same, for any program that differs from the crate in six functions | the same soundness theorem, with the six functions as hypotheses |
| C74 | the same traces, computed exactly for the AES functions (`Source/TraceLemmas`, `Source/TraceAes`) | the lookups of the key schedule determine enough schedule words to run the recurrence backwards (`Proof/KeyRecovery`); then the first round's lookups determine the block |
| C75 | the exact trace of `Unpad::flush` and `Decipher::flush` (`Source/TraceCbc`) | injectivity of the trace in what `Learned` records, and the abstract decryptor of C68 for the block held back |
| C76 | the exact trace of `ro_mix` and `derive` (`Props/SideChannelScrypt`); PBKDF2, block mixing, `integerify` and `block_xor` by C72's check | loop invariants tie the lookups to `Integerify (X)` of the specification; the trace is injective in them; two lanes evaluated by the kernel for the dependence on the passphrase |
| C77 | the traces of `Cipher::write`, `flush`, `encrypt_block` and `Decipher::write`, `flush` (`Source/TraceCipher`) | the loops side by side: each block's AES lookups give the block (C74), the lengths are loop counts; induction on the history |
| C78 | strategies (`Ask`) that see only the answers of sessions of `Decipher`'s source (`accepts`) | C68 gives the answer as a condition on the decrypted block xor the vector; the last byte by two searches (pad bytes 0 and 1 are told apart by making 2 or 3 of them), the others by one search each, induction over the bytes and the blocks; questions counted along |
| C79 | the same | backwards induction over the blocks: the vector for a block is its decryption (C78) xor the wanted block; C69 for the result |
| C80 | histories of `Cipher`'s source (C68) | the chaining block is the last block answered (induction over the history); AES under a key is injective |
| C81 | `SHA256` and `HMac` used on after caught panics, source evaluated by `Source/Unwind.lean` | simulation by an abstract hash with a bounded counter: after a panic the counter is at least `2^bits / 8` and never falls |
| C82 | `pbkdf2_sha256` and `Scrypt::derive` with panics caught, source evaluated by `Source/Unwind.lean` | statements before the first write of `out` do not write it (frame theorem over the syntax); once the first block is derived all blocks are |
| C83 | `salsa20` with short buffers and the panic caught, source evaluated by `Source/Unwind.lean` | frame theorem for the statements before the writing loop; the loop round by round up to the word that does not fit |
| C84 | `Cipher` and `Decipher` lost and replaced, source | the abstract machines of C68: their state is the last block answered and the unsent bytes; for `Decipher` after one more block the held-back block no longer depends on the beginning |
| C85 | calls on many objects in any order, panics caught, source evaluated by `Source/Unwind.lean` | induction over the order; with C69 for messages |
| C86 | the text of the files; a lexer, a parser, name resolution, macro expansion and inference of the types of literals, in Lean (`Verif/Text`) | the kernel evaluates the front end on the text, in stages whose results are kept; then C62-C69 |
| C87 | the program read from the text and the hand-written model, side by side | the refinement theorems `src_*` of `Source/Refine`, and C86 |
| C88 | the program read from the text | C87 and the refutations of C18, C33, C34 |
| C89 | attackers as trees of questions, probabilities as means over finite sets (`Spec/Games.lean`); the program read from the text | the program is CBC of the padded plaintext; CBC with a random function is drawn lazily, block by block, and differs from random octets only when an input repeats (induction over the attacker and the blocks); random permutations against random functions by counting the permutations that agree with the answers so far; the birthday attacker by a recursion over the number of different ciphertexts seen |
| C90 | HMAC of the program read from the text; the compression function's calls listed by `Spec/Sha256.lean` | C86 and the collision reduction of C49, once for the outer and once for the inner hash |
| C91 | attackers that ask for keys, random functions drawn as they are asked (`Spec/KeyGames.lean`) | the program is PBKDF2 (C86); the last iterated value of each block is fresh and so makes the block uniform, unless an iterated value was asked before; the iterated values that the attacker does not see are drawn last, so that a salt meets one with small probability (induction over the attacker, the blocks and the iterations) |
| C92 | forgers (`Spec/KeyGames.lean`) | the program is HMAC (C86); the value of a random function at a message not asked is uniform |
| C93 | attackers that ask for scrypt keys (`Spec/ScryptGames.lean`) | the program is scrypt (C86); with one iteration every block of both uses of PBKDF2 is fresh unless a value of the mixing function comes twice or is a salt; these values are drawn last (induction over the attacker and the blocks) |
| C94 | random last blocks given to `Decipher` (`Props/Garbage.lean`) | the program's answers (C68, C86); decrypting a block and chaining permute the blocks; the blocks `flush` accepts are counted |
| C95 | HMAC as two keyed runs of the compression function (`Spec/PrfGames.lean`) | the nested construction (Bellare 2006): random chaining values for the key, a random function for the outer run, then the outer inputs repeat only if two messages lead a random chaining value to the same value; that is bounded by replacing the compression function block by block, with a test by one more question if one sequence of blocks continues the other |
| C96 | the calls that the traced evaluation of the source makes (`Source/Leak.lean`), counted (`Source/Cost.lean`) | a syntactic check, closed under calls, that functions which cannot reach the counted one never call it; then the loops: the count of a loop is the sum over the states that the refinement proofs of C62-C66 go through |
| C97 | the object that a history of calls leaves, as a value of the evaluation of the source; its size is the sum of the sizes of the numbers in it | the refinement of C62, C63, C67, C68 gives the object after every history as the image of a model state; a key determines the schedule, so the abstract state of C43 determines the object |
| C98 | a copy of the models of PKCS7, CBC and scrypt's `derive` in which a vector is its octets and its capacity (`Model/Growing`); a policy says how much more a full vector reserves, and `std` doubles | the copy erases to the model or panics; an invariant on the capacity (at least 32, at most twice the largest sum gathered, for `std` a power of two) gives the exact limit |
| C99 | attackers with chosen plaintexts and chosen ciphertexts (`Spec/SealGames`) against `Cipher`, `HMac` and `Decipher` of the text | as long as no tag is found the recipient refuses every new box, so the attacker is one of C89; who notices a difference has found a tag, and is a forger of C92 once the key of the `Cipher` and the initialization vectors are fixed |
| C100 | the attackers of C99, with both keys derived from a password by `pbkdf2_sha256` or `Scrypt` of the text | with the initialization vectors fixed, the attacker and the holder of the keys together are an attacker of C91 or C93 who asks for one key; with random keys it is C99 |
| C101 | the lookups in the traces of `AES::encrypt` and `AES::decrypt` of the text (`Source/TraceRounds`), round by round | two columns differ in at least five bytes before and after `mix_column` together, since all its coefficients, those of its inverse and its minors of order two are not zero; `shift_rows` sends a column to four columns (`Proof/WideTrail`) |
| C102 | the games of `Spec/Games`, two attackers that wait for equal blocks (`Spec/Rekey`), the `Cipher` of the text | AES permutes the blocks, so the first ciphertext block is as random as the iv; induction over the messages; C89 for all blocks |
| C103 | keys derived by the text from two passwords, and the recipient of C99 and C100 under both | 32 octets of a derived key are one HMAC, and C90 |
| C104 | a copy of the model of scrypt on a heap that counts the bytes taken and the most ever taken (`Model/Heap`); a vector takes memory where it is made and gives it back where Rust drops it | the copy erases to the model of C98; every function has a postcondition on the two counters, by invariants of its loops; joining the lanes does not look at their octets |
| C105 | the models of PKCS7, AES-CBC and `init` on the same heap (`Model/HeapCbc`), histories of calls whose results the caller drops (`Props/HeapRun`), and dropping the object | erases to the model of C98; an invariant on capacities and counters that every call keeps, and induction over the history |
| C106 | the derivation, encryption, authentication and decryption of C91, C93 and C99, from the text of the source; attackers that choose salts, with their game, in `Spec/SaltGames` | the attacker as one on the derivation of keys (each salt asked for once); then a hybrid over the salts in the order of their first use, each step being C99 for the boxes with that salt |
| C107 | sessions of the `Cipher` as in C51 and C52 | AES permutes the blocks, so where the messages agree the blocks agree exactly if those before them do; induction over the blocks |
| C108 | sessions of the `Decipher` as in C53 | the block equation of CBC decryption, and AES under a key is injective |
| C109 | `Pad` and `Unpad` of the text, sequences of messages | the refinement theorems of `Source/Refine/Pkcs7`; induction over the writes and the messages with the invariant of C40 |
| C110 | algorithms that evaluate a keyed function, the function drawn as it is evaluated, PBKDF2 as such an algorithm (`Spec/GuessGames.lean`) | the program is PBKDF2 (C86), with `hmacWithBlock` as the function; PBKDF2 draws all its values anew, up to collisions; the sum of a chain may then be drawn first and the chain afterwards, so that the attacker notices the hidden values only at the end of a chain, or by chance (induction over the attacker, with the list of chains and how far each was gone through); with random keys the passwords may be drawn last, and a log of the steps shows that no more than `Q / c` pairs of a user and a password were gone through |
| C111 | algorithms that evaluate HMAC and the Salsa20/8 core, the functions drawn as they are evaluated, scrypt as such an algorithm (`Spec/ScryptPrice.lean`) | the program is scrypt (C86), with HMAC-SHA-256 and the core as the functions; what an algorithm finds does not depend on whether others ran before it (`Proof/Drawing.lean`), so the mixing for all users and all passwords may be done first, or after the attacker; up to collisions, every evaluation of the core in it is a new one, because what it is evaluated on contains a value drawn just before (`Proof/ScryptLanes.lean`); an attacker that has not made one of these evaluations finds the end of the chain only by chance; one that has made all of them for a list of users and passwords has made `4 * r * N * p` for each |
| C112 | algorithms that evaluate a function on strings of `128 * r` octets, scryptROMix over such a function (`Spec/TableGames.lean`) | the program is scrypt (C86), with scryptBlockMix as the function; all entries are looked for at the same time, step by step; an entry that is used before the one in front of it was evaluated is a hit, a value that is drawn later but is known before; `p` hits have a probability below the `p`-th power of that of one, so that all contents of the memory together do not make up for it; every entry found is found from the last hit in front of it (`Proof/TableGames.lean`) |
| C113 | machines that keep a value of a finite type between steps, with any number of evaluations in each (`Spec/TableMachine.lean`) | the program as in C112; when the machine evaluates the function on the value of one iteration, then, by the argument of C112 for the memory of that moment, there are few entries from which the evaluation of the next iteration can come soon, and the number of the entry is a random one because Integerify meets every number equally often; drawing again the value of the function at one place bounds the probability of each of these events after the other (`Proof/TableMachine.lean`) |
| C114 | machines as in C113, whose memory is a list of octets of any length, and what they spend (`spent` in `Spec/TableMachine.lean`) | the events of C113 from the memory at each time before, with a number of steps that depends on how much there is (`Proof/TableMachine.lean`); when the next evaluation comes `z` steps after a window of `x` steps, then the memory in the window is at least about `N/8` times the logarithm of `1 + x/z`, and the sum of these over half of all iterations is large (`Proof/MemorySum.lean`); a machine that spends little uses little memory at all times, so its memory may be taken for finite |
| C115 | what `k` searches find, and the messages made of it (`Spec/Multicollision.lean`) | induction on the number of searches: all choices lead to the hash value where the next search starts; different choices give different messages since the blocks of each pair differ; pigeonhole for the other function; C01 |
| C116 | the key expansion run backwards (`Spec/KeySchedule.lean`) | words `i + 1, ...` are those of a key exactly when the words computed from them are the words `i, ...`; induction on `i`; the words from 0 on are the key |
| C117 | the hash value inside of HMAC after whole blocks (`Spec/HmacInside.lean`) | the rest of the computation is a function of this hash value, the length and the continuation; backwards from equal digests, the octets of a hash value determine it; C06 |
| C118 | states before the S-boxes with arbitrary round keys, the probability over independent round keys (`Spec/Trail.lean`); the lookups of C101 | S-box: a quadratic equation in the field; one round: the keys with a given difference at its end are a product over the 16 bytes; rounds: induction over the first round key; number of differing bytes from C101's argument |
| C119 | linear functions of states, the probability of an equation over independent round keys (`Spec/Linear.lean`) | every linear function of a byte is a bit of a product in the field, so that all equations on the inverse come down to 255 sums, which the kernel evaluates; one round: a product over the 16 bytes; rounds: induction over the first round key; the transpose of MixColumns spreads as MixColumns does |
| C120 | the rounds of SHA-256 backwards (`Spec/FixedPoint.lean`), the model of `SHA256` | a round and its inverse cancel, so that the hash value stays the same exactly when the rounds lead to zeros; the program by C01's refinement of `update` |
| C121 | the sign of the permutation of blocks (`Spec/Even.lean`, Mathlib's `Equiv.Perm.sign`) | SubBytes, ShiftRows and AddRoundKey act on each row by itself, MixColumns on each column by itself; a permutation that acts on two parts independently, each with an even number of values, is even |
| C122 | parts of derived keys, HMAC repeated (`Spec/Iterations.lean`), the model of `pbkdf2_sha256` | by C08 the keys are sums of a chain of HMACs; two neighbours differ by one link of the chain; who else passes the test: C90's argument; work: C61's counters |
| C123 | `moved`, `joined` (`Spec/CbcMac.lean`), the models of `Cipher` and `Decipher` | by C28 and C30 sessions are CBC of the padded message; the first block meets the iv only in their exclusive or; CBC of a message after whole blocks is CBC with the last ciphertext block as iv |
| C124 | what is seen of each block, what an arrangement of blocks opens to (`Spec/CbcPaste.lean`), the models of `Cipher` and `Decipher` | by C28, AES decrypts a block that was seen to the message block and the block before; then C32; acceptance: the blocks open to a padded message |
| C125 | the games of C92 with digests cut to t bytes, a search through all strings of t bytes (`Spec/ShortTags.lean`), `HMac` of the program in the text | as C92; a random digest begins with a given string with probability 2^(-8t); the search: by induction on the list of strings |
| C126 | strategies that use AES, the search from both sides (`Spec/TwoKeys.lean`), the model of `AES` | by C24 encryption and decryption with a key are inverse, so the second table has the blocks that the second key leads to c; tables by induction on the list of keys |
| C127 | Floyd's search, with a counter (`Spec/Chase.lean`), the model of `SHA256` | by C01 each step is SHA-256, so among 2^(8t) + 1 values two are equal; they meet at a multiple of the period; the start has another length, so the walk ends at different strings |
| C128 | a loop over `HMac` for one part (`Props/OnePart.lean`), the model of `pbkdf2_sha256`, the counted copies (`Model/Counted.lean`) | by C06 the loop computes F of RFC 8018, by C08 that is the part; the counts of `HMac` are added up over the loop and compared with C61 |
| C129 | the derived `Debug` and `PartialEq` (`Model/Derived.lean`), histories of calls on the models of `Cipher` and `Decipher` | the machine of C43 has a key exactly if a valid `init` came before; case analysis over the next call and over the errors |
| C130 | `Cipher` and `Pad` with capacities and with the state that a panic leaves (`Model/Caught.lean`), the encryptor with a limited buffer (`Spec/CbcCaught.lean`) | a call without panic is that of `Model/Growing.lean`; where pushing stops by induction over the bytes; histories by an invariant: less than a block pending, or exactly the limit |
| C131 | `Decipher` and `Unpad` in the same way (`Model/Caught.lean`), the decryptor with two limited buffers (`Spec/CbcCaught.lean`) | as C130, with an invariant for both buffers: the plaintext held back is empty, one block, or exactly the limit |
| C132 | nothing new | decryption of a prefix of the ciphertext is the prefix of the message in whole blocks; the rest of the bytes is ignored; then the exact account of `flush` |
| C133 | nothing new | a failed `flush` changes nothing (C36), so both messages are one for the `Decipher`; its answers are split between the two |
| C134 | the traces of C74, each index divided by the number of entries of a line | the lookups of the first round are of block plus key; everything before them looks the same for all data. Those of the second round (`Source/TraceTwo`) give the next four words of the key schedule |
| C135 | nothing new | the message theorem of the `Decipher` twice; the state in between holds the bytes that were too many and the last block |
| C136 | the traces of C74, only the outcomes of tests kept (`Source/TraceTests`) | the doublings of the first round test the two highest bits of each byte after the S-box; no two shifts of the S-box agree in them everywhere (a table of 256 entries, evaluated by the kernel) |
| C137 | the trial `peek` (`Spec/ScryptPeek`) as an algorithm that evaluates HMAC and the core; the traces of C76 | C76 gives a function from traces to entries; every evaluation of the core takes in the value before, so it is new unless two random values meet (`Proof/ScryptPeek`) |
