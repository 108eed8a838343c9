import Verif.Proof.GuessGames
import Verif.Props.DerivedKeys

/-!
Property C110: the iterations and the salts of PBKDF2 slow down the search for passwords. An attacker who has the keys derived for several users
learns nothing about their passwords, if HMAC is taken for a random function, except by going through all the iterations itself, for one user and
one password at a time. The attackers and the games are in `Spec/GuessGames.lean`.
-/

namespace Verif.Props.Guessing
open Verif Verif.Source Verif.Text Verif.Props.Source Verif.Props.FromText Verif.Props.DerivedKeys Spec.GuessGames
open Spec.Games (avg avg_const avg_mono avg_add avg_comm avg_nonneg avg_le_one avg_mem_card)
open Spec.KeyGames (Digest count)

attribute [local irreducible] avg

/-! ### What the program does -/

/-- The keys that the program `p` derives for the users. -/
def programKeys (p : Program) (T : Target) (fuel depth : Nat) (password : (u : Nat) → List U8) (rs : List Request) : List (List U8) :=
  rs.mapIdx fun u r => kdf p T fuel depth (password u) r.salt r.c r.len

theorem hmacWithBlock_eq (password x : List U8) : hmacWithBlock (blockOf password) x = Spec.KeyGames.hmac password x := rfl

theorem run_iterate {β : Type} (password salt : List U8) (i j m : Nat) (acc : Digest) (k : Digest → Algorithm β) :
    ∃ acc' : Digest, (iterate (blockOf password) j (iter password salt i m).toList acc k).run hmacWithBlock = (k acc').run hmacWithBlock ∧
      acc'.toList = (List.range j).foldl (fun a x => Spec.xorBytes a (Spec.Pbkdf2.U Spec.hmacSha256 password salt i (m + x + 1))) acc.toList := by
  induction j generalizing m acc with
  | zero => exact ⟨acc, rfl, rfl⟩
  | succ j ih =>
    obtain ⟨acc', h1, h2⟩ := ih (m + 1) (List.Vector.map₂ (· ^^^ ·) acc (iter password salt i (m + 1)))
    refine ⟨acc', h1, ?_⟩
    rw [h2, List.range_succ_eq_map, List.foldl_cons, List.foldl_map, Nat.add_zero, ← iter_toList]
    simp only [Nat.add_comm, Nat.add_left_comm, Nat.succ_eq_add_one]
    rfl

theorem run_blocks {β : Type} (password salt : List U8) (c : Nat) (hc : 1 ≤ c) (i l : Nat) (k : List U8 → Algorithm β) :
    (Spec.GuessGames.blocks (blockOf password) salt c i l k).run hmacWithBlock =
      (k ((List.range l).flatMap fun x => Spec.Pbkdf2.F Spec.hmacSha256 password salt c (i + x + 1))).run hmacWithBlock := by
  induction l generalizing i k with
  | zero => rfl
  | succ l ih =>
    obtain ⟨n, rfl⟩ : ∃ n, c = n + 1 := ⟨c - 1, by omega⟩
    rw [Spec.GuessGames.blocks, iterate, Algorithm.run, hmacWithBlock_eq]
    obtain ⟨acc', h1, h2⟩ := run_iterate password salt (i + 1) n 0
      (List.Vector.map₂ (· ^^^ ·) (List.Vector.replicate 32 0) (iter password salt (i + 1) 0))
      (fun t => Spec.GuessGames.blocks (blockOf password) salt (n + 1) (i + 1) l fun rest => k (t.toList ++ rest))
    refine h1.trans ?_
    rw [Spec.KeyGames.zero_xor] at h2
    rw [ih, h2, List.range_succ_eq_map, List.flatMap_cons, List.flatMap_map, Nat.add_zero, iter_toList]
    have e : (List.range n).foldl (fun a x => Spec.xorBytes a (Spec.Pbkdf2.U Spec.hmacSha256 password salt (i + 1) (0 + x + 1)))
        (Spec.Pbkdf2.U Spec.hmacSha256 password salt (i + 1) 0) = Spec.Pbkdf2.F Spec.hmacSha256 password salt (n + 1) (i + 1) := by
      simp only [Nat.zero_add]
      rfl
    rw [e]
    simp only [Nat.succ_eq_add_one, Nat.add_comm, Nat.add_left_comm]

/-- **C110.** The experiment is the one with the program: what the attacker does with the keys that `pbkdf2_sha256` of the program in the text
derives, when it evaluates HMAC-SHA-256 itself, is what it does in the experiment `derive` with HMAC-SHA-256 as the keyed function. -/
theorem C110_program {p : Program} (hp : IsProgram Files.lib sources p) (T : Target) (fuel depth : Nat) (hd : 8 ≤ depth)
    (password : (u : Nat) → List U8) (hP : ∀ u, 8 * (password u).length < 2 ^ T.bits) (rs : List Request)
    (hr : ∀ r ∈ rs, Possible T r.salt r.c r.len ∧ 1 ≤ r.c ∧ r.len ≤ (2 ^ 32 - 1) * 32) {β : Type} (a : List (List U8) → Algorithm β) :
    (a (programKeys p T fuel depth password rs)).run hmacWithBlock = (derive (fun u => blockOf (password u)) 0 rs a).run hmacWithBlock := by
  suffices h : ∀ u (a : List (List U8) → Algorithm β),
      (a (rs.mapIdx fun i r => kdf p T fuel depth (password (u + i)) r.salt r.c r.len)).run hmacWithBlock =
        (derive (fun u => blockOf (password u)) u rs a).run hmacWithBlock by
    have := h 0 a
    simp only [Nat.zero_add] at this
    exact this
  induction rs with
  | nil => intro u a; rfl
  | cons r rs ih =>
    intro u a
    obtain ⟨h1, h2, h3⟩ := hr r List.mem_cons_self
    have := ih (fun r hr' => hr r (List.mem_cons_of_mem _ hr')) (u + 1)
      fun keys => a (kdf p T fuel depth (password u) r.salt r.c r.len :: keys)
    rw [derive, run_blocks _ _ _ h2, List.mapIdx_cons]
    simp only [Nat.add_zero, Nat.zero_add]
    rw [kdf_eq hp T fuel depth hd (password u) r.salt (hP u) r.c r.len h1 h2 h3] at this ⊢
    simp only [Nat.add_assoc, Nat.add_comm 1] at this ⊢
    exact this

/-! ### The price of a guess -/

section
variable {α : Type} [Fintype α] [Nonempty α]

omit [Nonempty α] in
/-- The mean of the probability of an event that is one guess, fixed before the passwords are drawn. -/
theorem random_guess {β : Type} (good : α → β → Bool) (g : ℚ) (hg : ∀ b, (avg fun x => if good x b then (1 : ℚ) else 0) ≤ g)
    (a : Algorithm β) (t : Table) : (avg fun x => a.random (good x) t) ≤ g := by
  induction a generalizing t with
  | result b => exact hg b
  | eval key x next ih =>
    simp only [Algorithm.random]
    split
    · exact ih _ _
    · rw [avg_comm]
      refine (avg_mono fun y => ih y _).trans ?_
      rw [avg_const]

omit [Nonempty α] in
theorem ideal_guess {β : Type} (good : α → β → Bool) (g : ℚ) (hg : ∀ b, (avg fun x => if good x b then (1 : ℚ) else 0) ≤ g)
    (rs : List Request) (a : List (List U8) → Algorithm β) : (avg fun x => ideal rs (good x) a) ≤ g := by
  simp only [ideal, uniform_eq 0]
  rw [← drawL_avg]
  refine (drawL_mono fun Ts _ => random_guess good g hg (a _) []).trans ?_
  rw [drawL_const]

omit [Nonempty α] in
theorem guessed_cons (key : α → Nat → List U8) (w : Nat × List U8) (L : List (Nat × List U8)) :
    guessed key (w :: L) ≤ guessed key [w] + guessed key L := by
  rw [guessed, guessed, guessed, ← avg_add]
  refine avg_mono fun x => ?_
  simp only [List.mem_cons, List.not_mem_nil, or_false, exists_eq_or_imp, exists_eq_left]
  by_cases h1 : key x w.1 = w.2 <;> by_cases h2 : ∃ g ∈ L, key x g.1 = g.2 <;>
    simp only [h1, h2, or_true, or_false, if_true, if_false] <;> norm_num

omit [Nonempty α] in
theorem guessed_le (key : α → Nat → List U8) (μ : ℚ) (hμ : ∀ w, guessed key [w] ≤ μ) (L : List (Nat × List U8)) :
    guessed key L ≤ L.length * μ := by
  induction L with
  | nil => simp [guessed, avg]
  | cons w L ih =>
    refine (guessed_cons key w L).trans ?_
    have := hμ w
    push_cast [List.length_cons]
    linarith

/-- **C110.** Every guess costs the attacker `c` evaluations. It is given the keys derived for several users, with different salts and at least `c`
iterations, and evaluates HMAC, with keys and messages of its choice, at most `Q` times. What it finds out, in the sense of any relation
`good` between the passwords and its result, differs from what it finds out with random keys, which have nothing to do with the passwords, by no
more than the probability `g` that one of `Q / c` guesses is right, each of a user and a password, and a small term; `n` is the
number of iterations for all keys. The passwords are drawn in any way, `secret x u` for user number `u` and a uniformly random `x`. HMAC is
taken for a random function of the 64 octets that it makes of its key, and of the message. -/
theorem C110_guesses (secret : α → (u : Nat) → List U8) (rs : List Request) (hs : (rs.map (·.salt)).Nodup)
    (hl : ∀ r ∈ rs, r.len ≤ (2 ^ 32 - 1) * 32) (c Q n : Nat) (hc : 1 ≤ c) (hcc : ∀ r ∈ rs, c ≤ r.c) (hn : n = iterations rs)
    (g : ℚ) (hg : ∀ L : List (Nat × List U8), L.length ≤ Q / c → guessed (fun x u => blockOf (secret x u)) L ≤ g)
    {β : Type} (good : α → β → Bool) (a : List (List U8) → Algorithm β) (ha : ∀ keys, (a keys).Within Q) :
    |(avg fun x => real rs (fun u => blockOf (secret x u)) (good x) a) - avg fun x => ideal rs (good x) a| ≤
      g + n * (2 * n + Q) / 2 ^ 256 := by
  subst hn
  refine close _ rs hs (fun r hr => ?_) c Q hc hcc g (fun L hL => hg L ((Nat.le_div_iff_mul_le hc).2 hL)) good a ha
  have := hl r hr
  rw [count]
  omega

/-- **C110.** If every single password has at most the probability `μ`, for every user, then the attacker names a user and the password of this
user, or one that HMAC takes for the same, with a probability of no more than `(Q / c + 1) * μ` and the small term. -/
theorem C110_password (secret : α → (u : Nat) → List U8) (rs : List Request) (hs : (rs.map (·.salt)).Nodup)
    (hl : ∀ r ∈ rs, r.len ≤ (2 ^ 32 - 1) * 32) (c Q n : Nat) (hc : 1 ≤ c) (hcc : ∀ r ∈ rs, c ≤ r.c) (hn : n = iterations rs)
    (μ : ℚ) (hμ : ∀ (u : Nat) (block : List U8), (avg fun x => if blockOf (secret x u) = block then (1 : ℚ) else 0) ≤ μ)
    (a : List (List U8) → Algorithm (Nat × List U8)) (ha : ∀ keys, (a keys).Within Q) :
    (avg fun x => real rs (fun u => blockOf (secret x u)) (fun r => blockOf (secret x r.1) = blockOf r.2) a) ≤
      ((Q / c : Nat) + 1) * μ + n * (2 * n + Q) / 2 ^ 256 := by
  have h0 : 0 ≤ μ := le_trans (avg_nonneg fun x => by split_ifs <;> norm_num) (hμ 0 [])
  have hμ' (w : Nat × List U8) : guessed (fun x u => blockOf (secret x u)) [w] ≤ μ := by
    refine le_trans (le_of_eq ?_) (hμ w.1 w.2)
    simp only [guessed, List.mem_singleton, exists_eq_left]
  have h1 := C110_guesses secret rs hs hl c Q n hc hcc hn ((Q / c : Nat) * μ) (fun L hL =>
    (guessed_le _ μ hμ' L).trans (mul_le_mul_of_nonneg_right (Nat.cast_le.2 hL) h0))
    (fun x r => decide (blockOf (secret x r.1) = blockOf r.2)) a ha
  have h2 := ideal_guess (fun x (r : Nat × List U8) => decide (blockOf (secret x r.1) = blockOf r.2)) μ (fun r => by
    simpa using hμ r.1 (blockOf r.2)) rs a
  have h3 := (abs_le.1 h1).2
  linarith

omit [Fintype α] [Nonempty α] in
/-- **C110.** There is no shortcut, even for who knows the password and the salt: with fewer evaluations than iterations, the key still looks
random. -/
theorem C110_shortcut (password : List U8) (r : Request) (hl : r.len ≤ (2 ^ 32 - 1) * 32) (Q n : Nat) (hQ : Q < r.c) (hn : n = r.c * count r.len)
    {β : Type} (good : β → Bool) (a : List (List U8) → Algorithm β) (ha : ∀ keys, (a keys).Within Q) :
    |real [r] (fun _ => blockOf password) good a - ideal [r] good a| ≤ n * (2 * n + Q) / 2 ^ 256 := by
  have h1 := C110_guesses (α := Unit) (fun _ _ => password) [r] (by simp) (by simpa using hl) r.c Q n (by omega) (by simp)
    (by simp [iterations, hn]) 0 (fun L hL => ?_) (fun _ => good) a ha
  · simpa only [avg_const, zero_add] using h1
  · rw [Nat.div_eq_of_lt hQ] at hL
    obtain rfl := List.length_eq_zero_iff.1 (Nat.le_zero.1 hL)
    simp [guessed, avg]

omit [Nonempty α] in
/-- **C110.** The price is not higher: an attacker that tries guesses one after the other makes `c` evaluations for each of them, and tells the keys
from random ones with the probability that one of them is right, less the probability that a random key is the right one by chance. -/
theorem C110_attack (secret : α → (u : Nat) → List U8) (rs : List Request) (c : Nat) (hr : ∀ r ∈ rs, r.c = c ∧ r.len = 32)
    (L : List (Nat × List U8)) (hL : ∀ w ∈ L, w.1 < rs.length) :
    (∀ keys, (attempt rs L keys).Within (L.length * c)) ∧
    guessed (fun x u => blockOf (secret x u)) L - L.length / 2 ^ 256 ≤
      (avg fun x => real rs (fun u => blockOf (secret x u)) id (attempt rs L)) - avg fun _ : α => ideal rs id (attempt rs L) := by
  refine ⟨attempt_within rs c hr L hL, ?_⟩
  have h1 : guessed (fun x u => blockOf (secret x u)) L ≤ avg fun x => real rs (fun u => blockOf (secret x u)) id (attempt rs L) := by
    refine avg_mono fun x => ?_
    split_ifs with h
    · refine le_of_eq (Eq.symm (random_of_run _ [] fun F _ => ?_))
      rw [run_derive]
      simp only [Nat.zero_add]
      exact attempt_run F _ rs L hL h _ rfl
    · exact random_nonneg _ _
  have h2 : (avg fun _ : α => ideal rs id (attempt rs L)) ≤ L.length / 2 ^ 256 := by
    have h3 := attempt_ideal rs (fun r h => (hr r h).2) L []
    rw [ε_eq, mul_one_div] at h3
    rcases isEmpty_or_nonempty α with he | he
    · rw [show (avg fun _ : α => ideal rs id (attempt rs L)) = 0 by simp [avg]]
      positivity
    · rw [avg_const]
      exact h3
  linarith

omit [Nonempty α] in
/-- **C110.** The salts have to be different: if they are the same for all users, then with `c` evaluations one password is tried for all users at
once. -/
theorem C110_same_salt (secret : α → (u : Nat) → List U8) (salt : List U8) (c m : Nat) (block : List U8) :
    (∀ keys, (sweep ⟨salt, c, 32⟩ block keys).Within c) ∧
    (avg fun x => if ∃ u < m, blockOf (secret x u) = block then (1 : ℚ) else 0) - m / 2 ^ 256 ≤
      (avg fun x => real (List.replicate m ⟨salt, c, 32⟩) (fun u => blockOf (secret x u)) id (sweep ⟨salt, c, 32⟩ block)) -
        avg fun _ : α => ideal (List.replicate m ⟨salt, c, 32⟩) id (sweep ⟨salt, c, 32⟩ block) := by
  refine ⟨fun keys => ?_, ?_⟩
  · have := blocks_within block salt c 0 0 1 (fun t => .result (decide (t.take 32 ∈ keys))) fun _ => trivial
    rw [Nat.one_mul, Nat.add_zero] at this
    rw [sweep, show count 32 = 1 from rfl]
    exact this
  have h1 : (avg fun x => if ∃ u < m, blockOf (secret x u) = block then (1 : ℚ) else 0) ≤
      avg fun x => real (List.replicate m ⟨salt, c, 32⟩) (fun u => blockOf (secret x u)) id (sweep ⟨salt, c, 32⟩ block) := by
    refine avg_mono fun x => ?_
    split_ifs with h
    · obtain ⟨u, hu, e⟩ := h
      refine le_of_eq (Eq.symm (random_of_run _ [] fun F _ => ?_))
      rw [run_derive, sweep, run_blocks_k]
      simp only [Nat.zero_add, Algorithm.run, id, decide_eq_true_eq]
      rw [List.mem_iff_getElem]
      refine ⟨u, by simpa using hu, ?_⟩
      simp only [List.getElem_mapIdx, List.getElem_replicate, e]
      rfl
    · exact random_nonneg _ _
  have h2 : (avg fun _ : α => ideal (List.replicate m ⟨salt, c, 32⟩) id (sweep ⟨salt, c, 32⟩ block)) ≤ m / 2 ^ 256 := by
    have h3 := sweep_ideal (List.replicate m ⟨salt, c, 32⟩) (fun r h => by rw [(List.mem_replicate.1 h).2]) ⟨salt, c, 32⟩ block []
    rw [ε_eq, mul_one_div, List.length_replicate] at h3
    rcases isEmpty_or_nonempty α with he | he
    · rw [show (avg fun _ : α => ideal (List.replicate m ⟨salt, c, 32⟩) id (sweep ⟨salt, c, 32⟩ block)) = 0 by simp [avg]]
      positivity
    · rw [avg_const]
      exact h3
  linarith

end

/-! ### A case -/

/-- Two users; the second key takes two blocks. -/
def exampleRequests : List Request := [⟨[1], 1000, 32⟩, ⟨[2], 2000, 40⟩]

/-- Each has a random password of 8 octets. -/
def exampleSecret (x : List.Vector U8 8 × List.Vector U8 8) (u : Nat) : List U8 := if u = 0 then x.1.toList else x.2.toList

theorem blockOf_short (x : List.Vector U8 8) : blockOf x.toList = x.toList ++ List.replicate 56 0 := by
  rw [blockOf, Spec.hmacKey]
  simp

theorem one_of (s : List U8) : (avg fun x : List.Vector U8 8 => if blockOf x.toList = s then (1 : ℚ) else 0) ≤ 1 / 2 ^ 64 := by
  generalize hS : Finset.univ.filter (fun x : List.Vector U8 8 => blockOf x.toList = s) = S
  have e : (fun x : List.Vector U8 8 => if blockOf x.toList = s then (1 : ℚ) else 0) = fun x => if x ∈ S then (1 : ℚ) else 0 := by
    funext x
    simp [← hS]
  have hcard : Fintype.card (List.Vector U8 8) = 2 ^ 64 := by
    rw [card_vector, show Fintype.card U8 = 2 ^ 8 from (Fintype.ofEquiv_card _).trans (Fintype.card_fin _)]
    norm_num
  rw [e, avg_mem_card, hcard]
  have : S.card ≤ 1 := by
    rw [Finset.card_le_one]
    intro x hx y hy
    rw [← hS, Finset.mem_filter] at hx hy
    have h := hx.2.trans hy.2.symm
    rw [blockOf_short, blockOf_short] at h
    exact List.Vector.toList_injective (List.append_cancel_right h)
  push_cast
  exact div_le_div_of_nonneg_right (by exact_mod_cast this) (by norm_num)

instance : Nonempty (List.Vector U8 8) := ⟨List.Vector.replicate 8 0⟩

theorem example_single (u : Nat) (s : List U8) : (avg fun x => if blockOf (exampleSecret x u) = s then (1 : ℚ) else 0) ≤ 1 / 2 ^ 64 := by
  rw [Spec.Games.avg_prod]
  by_cases hu : u = 0
  · simp only [exampleSecret, if_pos hu, avg_const]
    exact one_of s
  · simp only [exampleSecret, if_neg hu]
    rw [avg_const]
    exact one_of s

/-- An attacker that evaluates HMAC with a password of its choice, `n` times, each time on what it got before, and names that password for the
second user. -/
def exampleAttacker : Nat → List U8 → Algorithm (Nat × List U8)
  | 0, _ => .result (1, [7])
  | n + 1, s => .eval (blockOf [7]) s fun y => exampleAttacker n y.toList

theorem example_within (n : Nat) (s : List U8) : (exampleAttacker n s).Within n := by
  induction n generalizing s with
  | zero => trivial
  | succ n ih => exact ⟨by omega, fun y => ih _⟩

/-- Five million evaluations give that attacker a chance of about `5001 / 2 ^ 64` at most. -/
example : (avg fun x => real exampleRequests (fun u => blockOf (exampleSecret x u)) (fun r => blockOf (exampleSecret x r.1) = blockOf r.2)
      fun keys => exampleAttacker 5000000 keys.flatten) ≤ (5000 + 1) * (1 / 2 ^ 64) + 5000 * (2 * 5000 + 5000000) / 2 ^ 256 := by
  have := C110_password exampleSecret exampleRequests (by decide) (by decide) 1000 5000000 5000 (by decide) (by decide) (by decide)
    (1 / 2 ^ 64) example_single (fun keys => exampleAttacker 5000000 keys.flatten) fun keys => example_within _ _
  exact_mod_cast this

example (T : Target) := C110_program C86_text.1 T 0 8 le_rfl (fun u => [BitVec.ofNat 8 u]) (fun u => by
    have := T.two_pow_ge
    simp only [List.length_singleton]
    omega) exampleRequests (fun r hr => by
    have hT : 2 ^ 31 - 1 ≤ T.isizeMax := by rcases T.bits_cases with h | h <;> simp [Target.isizeMax, h]
    have hB := T.two_pow_ge
    simp only [exampleRequests, List.mem_cons, List.not_mem_nil, or_false] at hr
    rcases hr with rfl | rfl <;> exact ⟨⟨by simp; omega, by simp; omega⟩, by decide, by decide⟩)
  fun keys => exampleAttacker 9 keys.flatten

/-- Who knows the password and makes one evaluation too few. -/
example := C110_shortcut [7] ⟨[1], 1000, 32⟩ (by decide) 999 1000 (by decide) (by decide) (fun r : Nat × List U8 => r.1 = 1)
  (fun keys => exampleAttacker 999 keys.flatten) fun keys => example_within _ _

/-- Three guesses for two users. -/
example := C110_attack exampleSecret [⟨[1], 1000, 32⟩, ⟨[2], 1000, 32⟩] 1000 (by decide)
  [(0, blockOf [7]), (1, blockOf [7]), (1, blockOf [8])] (by simp)

/-- A million users with the same salt. -/
example := C110_same_salt exampleSecret [1] 1000 1000000 (blockOf [7])

end Verif.Props.Guessing
