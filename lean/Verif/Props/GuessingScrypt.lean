import Verif.Proof.ScryptAttempt
import Verif.Props.Guessing
import Verif.Props.ScryptKeys

/-!
Property C111: with scrypt, every password that is tried costs `4 * r * N * p` evaluations of the Salsa20/8 core. An attacker who has the keys
derived for several users learns nothing about their passwords, if HMAC and the core are taken for random functions, except by making all these
evaluations itself, for one user and one password at a time. The attackers and the games are in `Spec/ScryptPrice.lean`.
-/

namespace Verif.Props.GuessingScrypt
open Verif Verif.Props.Source Verif.Props.FromText Verif.Props.ScryptKeys Spec.ScryptPrice
open Verif.Source hiding blocks
open Verif.Text hiding functions fill
open Spec.ScryptGames (Params)
open Spec.GuessGames (blockOf guessed)
open Spec.Games (avg avg_const avg_mono avg_add avg_comm avg_nonneg avg_le_one)
open Spec.KeyGames (count)

attribute [local irreducible] avg

/-! ### What the program does -/

/-- The keys that the program `p` derives for the users. -/
def programKeys (p : Program) (T : Target) (fuel depth : Nat) (P : Params) (password : (u : Nat) → List U8) (rs : List Request) : List (List U8) :=
  rs.mapIdx fun u r => kdf p T fuel depth P (password u) r.salt r.len

theorem hmac_functions (password x : List U8) : (functions (.hmac (blockOf password) x)).toList = Spec.hmacSha256 password x :=
  DerivedKeys.hmac_toList password x

theorem core_functions (x : List U8) : (functions (.core x)).toList = Spec.Scrypt.salsa208 x := by
  have h : (Spec.Scrypt.salsa208 x).length = 64 := Verif.Scrypt.salsa208_length x
  refine List.ext_getElem ?_ fun i h1 h2 => ?_
  · rw [List.Vector.toList_length, h]
    rfl
  · simp [functions, List.getD_eq_getElem?_getD, List.getElem?_eq_getElem h2]

theorem run_blocks (password salt : List U8) (i l : Nat) :
    (blocks (blockOf password) salt i l .result).run functions =
      (List.range l).flatMap fun x => Spec.Pbkdf2.F Spec.hmacSha256 password salt 1 (i + x + 1) := by
  induction l generalizing i with
  | zero => rfl
  | succ l ih =>
    rw [blocks, Algorithm.run, blocks_bind, run_bind, ih, Algorithm.run, hmac_functions, List.range_succ_eq_map, List.flatMap_cons, List.flatMap_map]
    simp only [Nat.succ_eq_add_one, Nat.add_comm, Nat.add_left_comm]
    rfl

/-- The value of `X` before step `j`. -/
def before (r : Nat) (B : List U8) : Nat → List U8
  | 0 => Spec.Scrypt.block B (2 * r - 1)
  | j + 1 => Spec.Scrypt.Y r B j

theorem Y_eq (r : Nat) (B : List U8) (j : Nat) : Spec.Scrypt.Y r B j = Spec.Scrypt.salsa208 (Spec.xorBytes (before r B j) (Spec.Scrypt.block B j)) := by
  cases j <;> rfl

theorem run_chain {β : Type} (r : Nat) (B : List U8) (m j : Nat) (ys : List (List U8)) (k : List (List U8) → Algorithm β) :
    (chain (before r B j) ((List.range' j m).map (Spec.Scrypt.block B)) ys k).run functions =
      (k (ys ++ (List.range' j m).map (Spec.Scrypt.Y r B))).run functions := by
  induction m generalizing j ys with
  | zero => simp [chain]
  | succ m ih =>
    rw [List.range'_succ, List.map_cons, List.map_cons, chain, Algorithm.run, core_functions, ← Y_eq]
    have := ih (j + 1) (ys ++ [Spec.Scrypt.Y r B j])
    rw [List.append_assoc] at this
    exact this

theorem run_blockMix {β : Type} (r : Nat) (B : List U8) (k : List U8 → Algorithm β) :
    (blockMix r B k).run functions = (k (Spec.Scrypt.blockMix r B)).run functions := by
  have h := run_chain r B (2 * r) 0 [] fun ys => k (shuffle r ys)
  rw [← List.range_eq_range', List.nil_append] at h
  have e : shuffle r ((List.range (2 * r)).map (Spec.Scrypt.Y r B)) = Spec.Scrypt.blockMix r B := by
    rw [shuffle, Spec.Scrypt.blockMix]
    congr 1 <;>
    · refine List.flatMap_congr fun i hi => ?_
      rw [List.mem_range] at hi
      rw [List.getD_eq_getElem?_getD, List.getElem?_map, List.getElem?_range (by omega)]
      rfl
  rw [e] at h
  exact h

theorem run_fill {β : Type} (r : Nat) (B : List U8) (n j : Nat) (k : List (List U8) → List U8 → Algorithm β) :
    (fill r n (Spec.Scrypt.V r B j) ((List.range j).map (Spec.Scrypt.V r B)) k).run functions =
      (k ((List.range (j + n)).map (Spec.Scrypt.V r B)) (Spec.Scrypt.V r B (j + n))).run functions := by
  induction n generalizing j with
  | zero => rfl
  | succ n ih =>
    rw [fill, run_blockMix]
    have := ih (j + 1)
    rw [List.range_succ, List.map_append, show j + 1 + n = j + (n + 1) by omega] at this
    exact this

theorem run_loop (r N : Nat) (hN : 1 ≤ N) (B : List U8) (n j : Nat) :
    (loop r N ((List.range N).map (Spec.Scrypt.V r B)) n (Spec.Scrypt.X r N B j)).run functions = Spec.Scrypt.X r N B (j + n) := by
  induction n generalizing j with
  | zero => rfl
  | succ n ih =>
    rw [loop, run_blockMix]
    have e : ((List.range N).map (Spec.Scrypt.V r B)).getD (Spec.Scrypt.integerify r (Spec.Scrypt.X r N B j) % N) [] =
        Spec.Scrypt.V r B (Spec.Scrypt.integerify r (Spec.Scrypt.X r N B j) % N) := by
      rw [List.getD_eq_getElem?_getD, List.getElem?_map, List.getElem?_range (Nat.mod_lt _ hN)]
      rfl
    rw [e]
    have := ih (j + 1)
    rw [show j + 1 + n = j + (n + 1) by omega] at this
    exact this

theorem run_roMix (r N : Nat) (hN : 1 ≤ N) (B : List U8) : (roMix r N B).run functions = Spec.Scrypt.roMix r N B := by
  have h := run_fill r B N 0 fun V X => loop r N V N X
  have h2 := run_loop r N hN B N 0
  rw [Nat.zero_add] at h h2
  exact h.trans h2

theorem F_length (P S : List U8) (i : Nat) : (Spec.Pbkdf2.F Spec.hmacSha256 P S 1 i).length = 32 := by
  rw [Spec.Pbkdf2.F]
  simp [Spec.Pbkdf2.U, Spec.hmacSha256, Spec.hmac]

/-- The blocks of PBKDF2 for one part of `B`. -/
def part (P : Params) (password salt : List U8) (i : Nat) : List U8 :=
  (List.range (4 * P.r)).flatMap fun x => Spec.Pbkdf2.F Spec.hmacSha256 password salt 1 (4 * P.r * i + x + 1)

theorem run_lanes (P : Params) (hN : 1 ≤ P.N) (password salt : List U8) (i l : Nat) :
    (lanes P (blockOf password) salt i l).run functions =
      (List.range' i l).flatMap fun x => Spec.Scrypt.roMix P.r P.N (part P password salt x) := by
  induction l generalizing i with
  | zero => rfl
  | succ l ih =>
    rw [lanes, run_bind, run_bind, ih, List.range'_succ, List.flatMap_cons, lane, blocks_bind, run_bind, run_blocks, run_roMix _ _ hN]
    rfl

theorem flatMap_part {f : Nat → List U8} (hf : ∀ x, (f x).length = 32) (n a b : Nat) (h : a + b ≤ n) :
    (((List.range n).flatMap f).drop (32 * a)).take (32 * b) = (List.range b).flatMap fun x => f (a + x) := by
  obtain ⟨c, rfl⟩ : ∃ c, n = a + (b + c) := ⟨n - a - b, by omega⟩
  have hl (g : Nat → Nat) (m : Nat) : ((List.range m).flatMap fun x => f (g x)).length = 32 * m := by
    rw [List.length_flatMap]
    simp only [hf, List.map_const', List.sum_replicate_nat, List.length_range]
    ring
  have ha : ((List.range a).flatMap f).length = 32 * a := hl id a
  rw [List.range_add, List.flatMap_append, List.drop_append_of_le_length ha.ge, List.drop_of_length_le ha.le, List.nil_append,
    List.flatMap_map, List.range_add, List.flatMap_append, List.take_append_of_le_length (hl (a + ·) b).ge, List.take_of_length_le (hl (a + ·) b).le]

theorem run_mix (P : Params) (hN : 1 ≤ P.N) (password salt : List U8) :
    (mix P (blockOf password) salt).run functions = P.mix (Spec.Pbkdf2.pbkdf2HmacSha256 password salt 1 P.size) := by
  rw [mix, run_lanes P hN, ← List.range_eq_range', Params.mix]
  refine List.flatMap_congr fun i hi => congrArg _ ?_
  rw [List.mem_range] at hi
  have hf (x : Nat) : (Spec.Pbkdf2.F Spec.hmacSha256 password salt 1 (x + 1)).length = 32 := F_length _ _ _
  have h := flatMap_part hf (4 * P.r * P.p) (4 * P.r * i) (4 * P.r) (by
    rw [← Nat.mul_succ]
    exact Nat.mul_le_mul_left _ hi)
  have hl : (Spec.Pbkdf2.stream Spec.hmacSha256 password salt 1 (4 * P.r * P.p)).length = P.size := by
    rw [Spec.Pbkdf2.stream, List.length_flatMap]
    simp only [hf, List.map_const', List.sum_replicate_nat, List.length_range, Params.size]
    ring
  rw [Spec.Pbkdf2.pbkdf2HmacSha256, Spec.Pbkdf2.pbkdf2, show (P.size + 31) / 32 = 4 * P.r * P.p by
    rw [show P.size = 32 * (4 * P.r * P.p) by rw [Params.size]; ring]
    omega, List.take_of_length_le hl.le, part]
  rw [show 128 * P.r * i = 32 * (4 * P.r * i) by ring, show 128 * P.r = 32 * (4 * P.r) by ring]
  exact h.symm

theorem run_key (P : Params) (hN : 1 ≤ P.N) (password : List U8) (r : Request) :
    keyOf functions P (blockOf password) r = Spec.Scrypt.scrypt password r.salt P.N P.r P.p r.len := by
  rw [keyOf, run_mix P hN, run_blocks, ScryptKeys.stream_eq]
  rfl

/-- **C111.** The experiment is the one with the program: what the attacker does with the keys that `Scrypt` of the program in the text derives,
when it evaluates HMAC-SHA-256 and the Salsa20/8 core itself, is what it does in the experiment `derive` with these two functions. -/
theorem C111_program {p : Program} (hp : IsProgram Files.lib sources p) (T : Target) (fuel depth : Nat) (hd : 8 ≤ depth) (P : Params)
    (hU : Usable T P) (password : (u : Nat) → List U8) (hP : ∀ u, 8 * (password u).length < 2 ^ T.bits) (rs : List Request)
    (hr : ∀ r ∈ rs, Possible T r.salt r.len) {β : Type} (a : List (List U8) → Algorithm β) :
    (a (programKeys p T fuel depth P password rs)).run functions = (derive P (fun u => blockOf (password u)) rs a).run functions := by
  have hN : 1 ≤ P.N := by
    obtain ⟨k, hk⟩ := hU.N
    rw [hk]
    exact Nat.one_le_two_pow
  rw [run_derive, programKeys]
  congr 2
  refine List.ext_getElem (by simp) fun i h1 h2 => ?_
  rw [List.getElem_mapIdx, List.getElem_mapIdx, run_key P hN]
  exact kdf_eq hp T fuel depth hd P hU _ _ (hP i) _ (hr _ (List.getElem_mem _))

/-! ### The price of a guess -/

section
variable {α : Type} [Fintype α]

/-- **C111.** Every guess costs the attacker `4 * r * N * p` evaluations of the core. It is given the keys derived for several users, with different
salts, and evaluates HMAC, with keys and messages of its choice, at most `h` times, and the core at most `c` times. What it finds out, in the
sense of any relation `good` between the passwords and its result, differs from what it finds out with random keys, which have nothing to do with
the passwords, by no more than the probability `g` that one of `c / (4 * r * N * p)` guesses is right, each of a user and a password, and a small
term; `S` is about the number of evaluations for all users and all passwords that they may have. The passwords are drawn in any way,
`secret x u` for user number `u` and a uniformly random `x`. HMAC is taken for a random function of the 64 octets that it makes of its key, and of
the message; the core is taken for a random function. -/
theorem C111_guesses [Nonempty α] (P : Params) (hr : 1 ≤ P.r) (hN : 1 ≤ P.N) (hp : 1 ≤ P.p) (hsize : P.size ≤ (2 ^ 32 - 1) * 32)
    (secret : α → (u : Nat) → List U8) (rs : List Request) (hs : (rs.map (·.salt)).Nodup) (hl : ∀ r ∈ rs, r.len ≤ (2 ^ 32 - 1) * 32)
    (h c S : Nat) (hS : S = Fintype.card α * rs.length * (price P + P.p + 1))
    (g : ℚ) (hg : ∀ L : List (Nat × List U8), L.length ≤ c / price P → guessed (fun x u => blockOf (secret x u)) L ≤ g)
    {β : Type} (good : α → β → Bool) (a : List (List U8) → Algorithm β) (ha : ∀ keys, (a keys).Within h c) :
    |(avg fun x => real P rs (fun u => blockOf (secret x u)) (good x) a) - avg fun x => ideal rs (good x) a| ≤
      g + P.N * S * (2 * S + h + c) / 2 ^ 512 := by
  have h0 : 1 ≤ price P := by
    rw [price]
    exact Nat.mul_pos (Nat.mul_pos (by omega) hN) hp
  refine close P ⟨hr, hN⟩ _ rs hp ?_ hs (fun r hr => ?_) h c g (fun L hL => hg L ((Nat.le_div_iff_mul_le h0).2 hL)) good a ha S hS
  · rw [show P.size = 32 * (4 * P.r * P.p) by rw [Params.size]; ring] at hsize
    omega
  · have := hl r hr
    rw [count]
    omega

/-- The mean of the probability of an event that is one guess, fixed before the passwords are drawn. -/
theorem random_guess {β : Type} (good : α → β → Bool) (g : ℚ) (hg : ∀ b, (avg fun x => if good x b then (1 : ℚ) else 0) ≤ g)
    (a : Algorithm β) (t : Table) : (avg fun x => a.random (good x) t) ≤ g := by
  simp only [random_eq]
  rw [← ex_avg]
  exact ex_le_const fun b _ _ => hg b

theorem ideal_guess {β : Type} (good : α → β → Bool) (g : ℚ) (hg : ∀ b, (avg fun x => if good x b then (1 : ℚ) else 0) ≤ g)
    (rs : List Request) (a : List (List U8) → Algorithm β) : (avg fun x => ideal rs (good x) a) ≤ g := by
  simp only [ideal]
  rw [uniform_avg]
  exact (uniform_mono fun keys => random_guess good g hg (a keys) _).trans_eq (uniform_const rs g)

/-- **C111.** If every single password has at most the probability `μ`, for every user, then the attacker names a user and the password of this
user, or one that HMAC takes for the same, with a probability of no more than `(c / (4 * r * N * p) + 1) * μ` and the small term. -/
theorem C111_password [Nonempty α] (P : Params) (hr : 1 ≤ P.r) (hN : 1 ≤ P.N) (hp : 1 ≤ P.p) (hsize : P.size ≤ (2 ^ 32 - 1) * 32)
    (secret : α → (u : Nat) → List U8) (rs : List Request) (hs : (rs.map (·.salt)).Nodup) (hl : ∀ r ∈ rs, r.len ≤ (2 ^ 32 - 1) * 32)
    (h c S : Nat) (hS : S = Fintype.card α * rs.length * (price P + P.p + 1))
    (μ : ℚ) (hμ : ∀ (u : Nat) (block : List U8), (avg fun x => if blockOf (secret x u) = block then (1 : ℚ) else 0) ≤ μ)
    (a : List (List U8) → Algorithm (Nat × List U8)) (ha : ∀ keys, (a keys).Within h c) :
    (avg fun x => real P rs (fun u => blockOf (secret x u)) (fun r => blockOf (secret x r.1) = blockOf r.2) a) ≤
      ((c / price P : Nat) + 1) * μ + P.N * S * (2 * S + h + c) / 2 ^ 512 := by
  have h0 : 0 ≤ μ := le_trans (avg_nonneg fun x => by split_ifs <;> norm_num) (hμ 0 [])
  have hμ' (w : Nat × List U8) : guessed (fun x u => blockOf (secret x u)) [w] ≤ μ := by
    refine le_trans (le_of_eq ?_) (hμ w.1 w.2)
    simp only [guessed, List.mem_singleton, exists_eq_left]
  have h1 := C111_guesses P hr hN hp hsize secret rs hs hl h c S hS ((c / price P : Nat) * μ) (fun L hL =>
    (Guessing.guessed_le _ μ hμ' L).trans (mul_le_mul_of_nonneg_right (Nat.cast_le.2 hL) h0))
    (fun x r => decide (blockOf (secret x r.1) = blockOf r.2)) a ha
  have h2 := ideal_guess (fun x (r : Nat × List U8) => decide (blockOf (secret x r.1) = blockOf r.2)) μ (fun r => by
    simpa using hμ r.1 (blockOf r.2)) rs a
  have h3 := (abs_le.1 h1).2
  generalize (P.N : ℚ) * S * (2 * S + h + c) / 2 ^ 512 = δ at h3 ⊢
  linarith

/-- **C111.** There is no shortcut, even for who knows the password and the salt: with one evaluation of the core less than the price, the key
still looks random. -/
theorem C111_shortcut (P : Params) (hr : 1 ≤ P.r) (hN : 1 ≤ P.N) (hp : 1 ≤ P.p) (hsize : P.size ≤ (2 ^ 32 - 1) * 32)
    (password : List U8) (r : Request) (hl : r.len ≤ (2 ^ 32 - 1) * 32) (h c : Nat) (hc : c < price P) {β : Type} (good : β → Bool)
    (a : List (List U8) → Algorithm β) (ha : ∀ keys, (a keys).Within h c) :
    |real P [r] (fun _ => blockOf password) good a - ideal [r] good a| ≤
      P.N * (price P + P.p + 1) * (2 * (price P + P.p + 1) + h + c) / 2 ^ 512 := by
  have h1 := C111_guesses (α := Unit) P hr hN hp hsize (fun _ _ => password) [r] (by simp) (by simpa using hl) h c (price P + P.p + 1) (by simp) 0
    (fun L hL => ?_) (fun _ => good) a ha
  · simp only [avg_const, zero_add] at h1
    rwa [Nat.cast_add, Nat.cast_add, Nat.cast_one] at h1
  · rw [Nat.div_eq_of_lt hc] at hL
    obtain rfl := List.length_eq_zero_iff.1 (Nat.le_zero.1 hL)
    simp [guessed, avg]

/-- **C111.** The price is not higher: an attacker that tries guesses one after the other makes `4 * r * N * p` evaluations of the core for each of
them, and `4 * r * p + 1` of HMAC, and tells the keys from random ones with the probability that one of them is right, less the probability that a
random key is the right one by chance. -/
theorem C111_attack (P : Params) (secret : α → (u : Nat) → List U8) (rs : List Request) (hr : ∀ r ∈ rs, r.len = 32)
    (L : List (Nat × List U8)) (hL : ∀ w ∈ L, w.1 < rs.length) :
    (∀ keys, (attempt P rs L keys).Within (L.length * (4 * P.r * P.p + 1)) (L.length * price P)) ∧
    guessed (fun x u => blockOf (secret x u)) L - L.length / 2 ^ 256 ≤
      (avg fun x => real P rs (fun u => blockOf (secret x u)) id (attempt P rs L)) - avg fun _ : α => ideal rs id (attempt P rs L) := by
  refine ⟨attempt_within P rs hr L hL, ?_⟩
  have h1 : guessed (fun x u => blockOf (secret x u)) L ≤ avg fun x => real P rs (fun u => blockOf (secret x u)) id (attempt P rs L) := by
    refine avg_mono fun x => ?_
    split_ifs with h
    · refine le_of_eq (Eq.symm (random_of_run _ _ _ fun F _ => ?_))
      rw [run_derive]
      exact attempt_run F P _ rs L hL h _ rfl
    · rw [real, random_eq]
      exact ex_nonneg fun b _ => by split_ifs <;> norm_num
  have h2 : (avg fun _ : α => ideal rs id (attempt P rs L)) ≤ L.length / 2 ^ 256 := by
    have h3 : ideal rs id (attempt P rs L) ≤ L.length / 2 ^ 256 := by
      have := attempt_ideal P rs hr L fun _ => none
      rw [mul_one_div] at this
      simp only [ideal, random_eq]
      exact this
    rcases isEmpty_or_nonempty α with he | he
    · rw [show (avg fun _ : α => ideal rs id (attempt P rs L)) = 0 by simp [avg]]
      positivity
    · rw [avg_const]
      exact h3
  linarith

end

/-! ### A case -/

/-- The parameters of the third test vector in RFC 7914. -/
def exampleParams : Params := ⟨8, 16384, 1⟩

/-- Two users; the second key takes two blocks. -/
def exampleRequests : List Request := [⟨[1], 32⟩, ⟨[2], 40⟩]

/-- An attacker that evaluates the core on what it got before, `n` times, then HMAC once, and names a password for the second user. -/
def exampleAttacker : Nat → List U8 → Algorithm (Nat × List U8)
  | 0, s => .eval (.hmac (blockOf [7]) s) fun _ => .result (1, [7])
  | n + 1, s => .eval (.core s) fun y => exampleAttacker n y.toList

theorem example_within (n : Nat) (s : List U8) : (exampleAttacker n s).Within 1 n := by
  induction n generalizing s with
  | zero => exact ⟨le_rfl, fun _ => trivial⟩
  | succ n ih => exact ⟨by omega, fun y => ih _⟩

theorem example_size : exampleParams.size ≤ (2 ^ 32 - 1) * 32 := by decide

theorem example_price : price exampleParams = 524288 := by decide

/-- Five million evaluations give that attacker a chance of about `10 / 2 ^ 64` at most. -/
example : (avg fun x => real exampleParams exampleRequests (fun u => blockOf (Guessing.exampleSecret x u))
      (fun r => blockOf (Guessing.exampleSecret x r.1) = blockOf r.2) fun keys => exampleAttacker 5000000 keys.flatten) ≤
    (9 + 1) * (1 / 2 ^ 64) + 16384 * (2 ^ 129 * 524290 : Nat) * (2 * (2 ^ 129 * 524290 : Nat) + 1 + 5000000) / 2 ^ 512 := by
  have hcard : Fintype.card (List.Vector U8 8 × List.Vector U8 8) = 2 ^ 128 := by
    rw [Fintype.card_prod, card_vector, show Fintype.card U8 = 2 ^ 8 from (Fintype.ofEquiv_card _).trans (Fintype.card_fin _)]
    norm_num
  have h := C111_password exampleParams (by decide) (by decide) (by decide) example_size Guessing.exampleSecret exampleRequests (by decide) (by decide)
    1 5000000 (2 ^ 129 * 524290) (by rw [hcard, example_price]; rfl) (1 / 2 ^ 64) Guessing.example_single
    (fun keys => exampleAttacker 5000000 keys.flatten) fun keys => example_within _ _
  rw [example_price] at h
  exact_mod_cast h

example (T : Target) := C111_program C86_text.1 T 0 8 le_rfl ⟨8, 1024, 16⟩ (by
    have hT : 2 ^ 31 - 1 ≤ T.isizeMax := by rcases T.bits_cases with h | h <;> simp [Target.isizeMax, h]
    have hB := T.two_pow_ge
    exact ⟨by decide, ⟨10, rfl⟩, by decide, by simp [Params.size]; omega, by rcases T with ⟨_ | _, _ | _⟩ <;> decide, by simp [Params.size]; omega, by decide⟩)
  (fun u => [BitVec.ofNat 8 u]) (fun u => by
    have := T.two_pow_ge
    simp only [List.length_singleton]
    omega) exampleRequests (fun r hr => by
    have hT : 2 ^ 31 - 1 ≤ T.isizeMax := by rcases T.bits_cases with h | h <;> simp [Target.isizeMax, h]
    have hB := T.two_pow_ge
    simp only [exampleRequests, List.mem_cons, List.not_mem_nil, or_false] at hr
    rcases hr with rfl | rfl <;> exact ⟨by simp; omega, by simp; omega⟩)
  fun keys => exampleAttacker 9 keys.flatten

/-- Who knows the password and makes one evaluation too few. -/
example := C111_shortcut exampleParams (by decide) (by decide) (by decide) example_size [7] ⟨[1], 32⟩ (by decide) 1 524287 (by rw [example_price]; decide)
  (fun r : Nat × List U8 => r.1 = 1) (fun keys => exampleAttacker 524287 keys.flatten) fun keys => example_within _ _

/-- Three guesses for two users. -/
example := C111_attack exampleParams Guessing.exampleSecret [⟨[1], 32⟩, ⟨[2], 32⟩] (by decide)
  [(0, blockOf [7]), (1, blockOf [7]), (1, blockOf [8])] (by simp)

end Verif.Props.GuessingScrypt
