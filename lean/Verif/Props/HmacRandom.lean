import Verif.Proof.PrfGames
import Verif.Props.Forgery
import Verif.Props.ScryptKeys
import Verif.Props.Sha256Structure
import Verif.Props.HmacCollision

/-!
Property C95: `HMac` with a secret key looks like a random function, if the compression function of SHA-256 does. The distinguishers and the
reductions are in `Spec/PrfGames.lean`.
-/

namespace Verif.Props.HmacRandom
open Verif Verif.Source Verif.Text Verif.Props.Source Verif.Props.FromText Verif.Props.Sha256 Spec.KeyGames Spec.PrfGames Spec.Sha256
open Verif.Props.HmacCollision (hmacKey_length)
open Verif.Props.DerivedKeys (hmac_toList)
open Verif.Props.Forgery (mac mac_eq Possible)
open Spec.Games (avg avg_const avg_mono)

attribute [local irreducible] avg

theorem octets_toList (h : State) : (Spec.PrfGames.octets h).toList = output h := by
  have hl : (output h).length = 32 := Verif.Sha256.output_length h
  apply List.ext_getElem
  · simp [hl]
  · intro i h1 h2
    simp only [Spec.PrfGames.octets, List.Vector.toList_ofFn, List.getElem_ofFn, List.getD_eq_getElem _ _ h2]

theorem words_octets (h : State) : words (Spec.PrfGames.octets h) = h := by
  have e : words (Spec.PrfGames.octets h) = stateOf (Spec.PrfGames.octets h).toList := rfl
  rw [e, octets_toList, stateOf_output]

theorem compression_octets (h : State) (b : List U8) (hb : b.length = 64) :
    compression (Spec.PrfGames.octets h) b = Spec.PrfGames.octets (hashAll h b) := by
  rw [compression, words_octets, hashAll, hb]
  rfl

theorem hashAll_one (h : State) (a b : List U8) (ha : a.length = 64) : hashAll h (a ++ b) = hashAll (hashAll h a) b := by
  rw [Verif.Sha256.hashAll_split h a b 1 (by omega), hashAll, hashAll, hashAll, ha]

theorem cascade_octets (n : Nat) (h : State) (s : List U8) (hs : s.length = 64 * n) :
    cascade (Spec.PrfGames.octets h) (cut n s) = Spec.PrfGames.octets (hashAll h s) := by
  induction n generalizing h s with
  | zero =>
    rw [List.length_eq_zero_iff.1 (by omega : s.length = 0)]
    rfl
  | succ n ih =>
    have h1 : (s.take 64).length = 64 := by rw [List.length_take]; omega
    have h2 := hashAll_one h (s.take 64) (s.drop 64) h1
    rw [List.take_append_drop] at h2
    rw [cut, cascade, List.foldl_cons, compression_octets h _ h1, h2]
    exact ih _ (s.drop 64) (by rw [List.length_drop]; omega)

theorem after_length (m : List U8) : (m ++ padding (64 + m.length) (8 * (64 + m.length))).length = 64 * ((m.length + 8) / 64 + 1) := by
  simp only [padding, zeroBytes, Spec.beBytes, List.length_append, List.length_cons, List.length_replicate,
    List.length_map, List.length_range]
  omega

theorem lastBlock_length (d : Digest) : (lastBlock d).length = 64 := by
  rw [lastBlock, List.length_append, d.toList_length]
  rfl

/-- SHA-256 of one block and a message. -/
theorem sha256_after (k m : List U8) (hk : k.length = 64) :
    sha256 (k ++ m) = output (hashAll (hashAll initial k) (m ++ padding (64 + m.length) (8 * (64 + m.length)))) := by
  rw [sha256, sha256WithLength, List.length_append, hk, List.append_assoc, hashAll_one initial k _ hk]

theorem hmac_nested (key m : List U8) : Spec.KeyGames.hmac key m = nested (innerKey key) (outerKey key) m := by
  apply List.Vector.toList_injective
  have hk := hmacKey_length key
  have hi : ((Spec.hmacKey sha256 key).map (· ^^^ 0x36)).length = 64 := by rw [List.length_map, hk]
  have ho : ((Spec.hmacKey sha256 key).map (· ^^^ 0x5c)).length = 64 := by rw [List.length_map, hk]
  rw [hmac_toList, Spec.hmacSha256, Spec.hmac, nested, innerKey, outerKey, compression_octets _ _ hi, compression_octets _ _ ho]
  rw [sha256_after _ _ hi, sha256_after _ _ ho, blocksAfter]
  rw [cascade_octets _ _ _ (by rw [after_length, Nat.mul_div_cancel_left _ (by decide)]), compression_octets _ _ (lastBlock_length _),
    octets_toList, lastBlock, octets_toList, Verif.Sha256.output_length]

theorem cut_flatten (n : Nat) (s : List U8) (hs : s.length = 64 * n) : (cut n s).flatten = s := by
  induction n generalizing s with
  | zero => rw [List.length_eq_zero_iff.1 (by omega : s.length = 0)]; rfl
  | succ n ih => rw [cut, List.flatten_cons, ih _ (by rw [List.length_drop]; omega), List.take_append_drop]

theorem cut_block (n : Nat) (s : List U8) (hs : s.length = 64 * n) : ∀ b ∈ cut n s, b.length = 64 := by
  induction n generalizing s with
  | zero => intro b hb; cases hb
  | succ n ih =>
    intro b hb
    rcases List.mem_cons.1 hb with rfl | hb
    · rw [List.length_take]; omega
    · exact ih _ (by rw [List.length_drop]; omega) b hb

theorem cut_length (n : Nat) (s : List U8) : (cut n s).length = n := by
  induction n generalizing s with
  | zero => rfl
  | succ n ih => rw [cut, List.length_cons, ih]

theorem blocksAfter_length (m : List U8) : (blocksAfter m).length = (m.length + 8) / 64 + 1 := by
  rw [blocksAfter]
  rw [cut_length, after_length, Nat.mul_div_cancel_left _ (by decide)]

theorem blocksAfter_block (m : List U8) : ∀ b ∈ blocksAfter m, b.length = 64 :=
  cut_block _ _ (by rw [after_length, Nat.mul_div_cancel_left _ (by decide)])

/-- Different messages have different blocks. -/
theorem blocksAfter_inj (m m' : List U8) (hm : 8 * (64 + m.length) < 2 ^ 64) (hm' : 8 * (64 + m'.length) < 2 ^ 64)
    (h : blocksAfter m = blocksAfter m') : m = m' := by
  have e := congrArg List.flatten h
  rw [blocksAfter, blocksAfter] at e
  rw [cut_flatten _ _ (by rw [after_length, Nat.mul_div_cancel_left _ (by decide)]),
    cut_flatten _ _ (by rw [after_length, Nat.mul_div_cancel_left _ (by decide)])] at e
  have aux : ∀ m : List U8, m ++ padding (64 + m.length) (8 * (64 + m.length)) =
      (m ++ 0x80 :: List.replicate (zeroBytes (64 + m.length)) 0) ++ Spec.beBytes 8 (8 * (64 + m.length)) := fun m => by simp [padding]
  have e' := e
  rw [aux, aux] at e'
  have h8 := (List.append_inj' e' (by simp [Spec.beBytes])).2
  have := beBytes8_inj _ _ hm hm' h8
  exact List.append_inj_left e (by omega)

theorem lastBlock_inj (a b : Digest) (h : lastBlock a = lastBlock b) : a = b :=
  List.Vector.toList_injective (List.append_inj_left h (by rw [a.toList_length, b.toList_length]))

/-- **C95.** How well a distinguisher `d` with `n` questions tells HMAC with a secret key from a random function. It is at most the sum of:
how well it tells the two chaining values of the key from two random ones, when it computes the rest by itself; the advantage of the
distinguisher `outer k d` for the compression function, in the mean over a random chaining value `k` which it draws itself;
`n * (n - 1) / 2 ^ 257`; and, for each pair of messages that `d` asks for if it gets random answers, the advantages of the distinguishers for
the compression function listed in `loss`, one per block, with one or two questions each. -/
theorem C95_hmac {α : Type} [Fintype α] (secret : α → List U8) (d : Distinguisher) (n : Nat)
    (hd : Asks (fun m => 8 * (64 + m.length) < 2 ^ 64) n d) :
    d.advantage secret ≤ hmacBound secret n d := by
  have h := nested_le (ok := fun m => 8 * (64 + m.length) < 2 ^ 64) (fun m m' h1 h2 => blocksAfter_inj m m' h1 h2) lastBlock_inj d n hd
  have e : (fun a => d.run (Spec.KeyGames.hmac (secret a))) = fun a => d.run (nested (innerKey (secret a)) (outerKey (secret a))) := by
    funext a
    exact congrArg (fun f => d.run f) (funext fun m => hmac_nested _ m)
  have e2 : (n * (n - 1) / 2 * one : ℚ) = n * (n - 1) / 2 ^ 257 := by
    rw [one, show (2 : ℚ) ^ 257 = 2 * 2 ^ 256 by rw [← pow_succ']]
    field_simp
  rw [e2] at h
  rw [Distinguisher.advantage, e, hmacBound, pairAdvantage]
  refine (abs_sub_le _ _ _).trans ((add_le_add le_rfl h).trans (le_of_eq ?_))
  simp only [add_assoc]

/-- What a distinguisher sees of the program: `HMac::new(key)`, `update` with the pieces of a message, `digest`. -/
def program (p : Program) (T : Target) (fuel depth : Nat) (key : List U8) (cut : List U8 → List (List U8)) (m : List U8) : Digest :=
  List.Vector.ofFn fun i => (mac p T fuel depth key (cut m)).getD i 0

theorem run_program {p : Program} (hp : IsProgram Files.lib sources p) (T : Target) (fuel depth : Nat) (hd : 8 ≤ depth) (key : List U8)
    (hk : 8 * key.length < 2 ^ T.bits) (cut : List U8 → List (List U8)) (hcut : ∀ m, (cut m).flatten = m)
    (d : Distinguisher) (n : Nat) (ha : Asks (Possible T) n d) :
    d.run (program p T fuel depth key cut) = d.run (Spec.KeyGames.hmac key) := by
  induction d generalizing n with
  | answer yes => rfl
  | query x next ih =>
    obtain ⟨hx, -, hn⟩ := ha
    have e : program p T fuel depth key cut x = Spec.KeyGames.hmac key x := by
      apply List.Vector.ext
      intro i
      rw [program, List.Vector.get_ofFn, mac_eq hp T fuel depth hd key hk (cut x) (by rw [hcut]; exact hx), hcut, hmac_toList,
        Spec.KeyGames.hmac, List.Vector.get_ofFn]
    rw [Distinguisher.run, Distinguisher.run, e]
    exact ih _ _ (hn _)

theorem Asks.imp {ok ok' : List U8 → Prop} (h : ∀ m, ok m → ok' m) (d : Distinguisher) (n : Nat) (hd : Asks ok n d) : Asks ok' n d := by
  induction d generalizing n with
  | answer yes => trivial
  | query x next ih => exact ⟨h _ hd.1, hd.2.1, fun y => ih _ _ (hd.2.2 y)⟩

theorem Possible.le {T : Target} {m : List U8} (h : Possible T m) : 8 * (64 + m.length) < 2 ^ 64 := by
  have h64 : 2 ^ T.bits ≤ 2 ^ 64 := Nat.pow_le_pow_right (by decide) (by rcases T.bits_cases with e | e <;> omega)
  rw [Possible] at h
  omega

/-- **C95.** The same for `HMac` of the program in the text, with a secret key drawn in any way (`secret x` for a uniformly random `x`), and
messages written in any pieces (`cut m`). -/
theorem C95_program {p : Program} (hp : IsProgram Files.lib sources p) (T : Target) (fuel depth : Nat) (hd : 8 ≤ depth)
    {α : Type} [Fintype α] (secret : α → List U8) (hs : ∀ x, 8 * (secret x).length < 2 ^ T.bits)
    (cut : List U8 → List (List U8)) (hcut : ∀ m, (cut m).flatten = m) (d : Distinguisher) (n : Nat) (ha : Asks (Possible T) n d) :
    against (fun x => program p T fuel depth (secret x) cut) d ≤ hmacBound secret n d := by
  have h := C95_hmac secret d n (Asks.imp (fun _ => Possible.le) d n ha)
  have e : (fun x => d.run (program p T fuel depth (secret x) cut)) = fun x => d.run (Spec.KeyGames.hmac (secret x)) :=
    funext fun x => run_program hp T fuel depth hd (secret x) (hs x) cut hcut d n ha
  rw [against, e]
  exact h

/-- **C95.** The distinguishers of the compression function ask for values at blocks of 64 octets, and for no more than said above. -/
theorem C95_questions (ok : List U8 → Prop) (d : Distinguisher) (n : Nat) (hd : Asks ok n d) (k t : Digest) (x y : List U8)
    (xs ys : List (List U8)) (hx : x.length = 64) (hy : y.length = 64) :
    Asks (fun b => b.length = 64) n (outer k d) ∧ Asks (fun b => b.length = 64) 1 (same x xs ys) ∧ Asks (fun b => b.length = 64) 2 (differ x y xs ys) ∧
    Asks (fun b => b.length = 64) 1 (reach x xs t) ∧ Asks (fun b => b.length = 64) 2 (itself x xs) := by
  refine ⟨?_, ⟨hx, le_rfl, fun _ => trivial⟩, ⟨hx, by decide, fun _ => ⟨hy, by decide, fun _ => trivial⟩⟩, ⟨hx, le_rfl, fun _ => trivial⟩,
    ⟨hx, by decide, fun _ => ⟨?_, by decide, fun _ => trivial⟩⟩⟩
  · induction d generalizing n with
    | answer yes => trivial
    | query m next ih => exact ⟨lastBlock_length _, hd.2.1, fun v => ih _ _ (hd.2.2 v)⟩
  · rw [other]
    split <;> simp

theorem reachLoss_le (ε : ℚ) (l : Nat) (h : ∀ x xs t, x.length = 64 → (∀ b ∈ xs, b.length = 64) → xs.length < l → against compression (reach x xs t) ≤ ε)
    (xs : List (List U8)) (t : Digest) (hb : ∀ b ∈ xs, b.length = 64) (hl : xs.length ≤ l) : reachLoss xs t ≤ xs.length * ε := by
  induction xs with
  | nil => simp [reachLoss]
  | cons x xs ih =>
    have hl' : xs.length < l := hl
    rw [reachLoss, List.length_cons]
    push_cast
    have h1 := h x xs t (hb x (by simp)) (fun b hb' => hb b (by simp [hb'])) hl'
    have h2 := ih (fun b hb' => hb b (by simp [hb'])) hl'.le
    linarith

/-- **C95.** In figures: if none of the distinguishers with one or two questions has an advantage over `ε`, as far as sequences of up to `l`
blocks are concerned, then those for one pair of messages have no more than `l * ε` together. -/
theorem C95_loss (ε : ℚ) (l : Nat) (hε : 0 ≤ ε)
    (h : ∀ x y xs ys t, x.length = 64 → y.length = 64 → (∀ b ∈ xs, b.length = 64) → (∀ b ∈ ys, b.length = 64) → xs.length < l → ys.length < l →
      against compression (same x xs ys) ≤ ε ∧ against compression (differ x y xs ys) ≤ ε ∧
      against compression (reach x xs t) ≤ ε ∧ against compression (itself x xs) ≤ ε)
    (xs ys : List (List U8)) (hx : ∀ b ∈ xs, b.length = 64) (hy : ∀ b ∈ ys, b.length = 64) (hxl : xs.length ≤ l) (hyl : ys.length ≤ l) :
    loss xs ys ≤ l * ε := by
  have hr := reachLoss_le ε l fun x xs t h1 h2 h3 =>
    (h x x xs [] t h1 h1 h2 (by intro b hb; cases hb) h3 (by simp only [List.length_nil]; omega)).2.2.1
  have key : ∀ (xs ys : List (List U8)) (j : Nat), (∀ b ∈ xs, b.length = 64) → (∀ b ∈ ys, b.length = 64) → xs.length + j ≤ l → ys.length + j ≤ l →
      loss xs ys ≤ (l - j : Nat) * ε := by
    intro xs
    induction xs with
    | nil =>
      intro ys j _ hy _ hyl
      cases ys with
      | nil => exact mul_nonneg (by positivity) hε
      | cons y ys =>
        rw [List.length_cons] at hyl
        have h1 := (h y y ys [] default (hy y (by simp)) (hy y (by simp)) (fun b hb => hy b (by simp [hb])) (by intro b hb; cases hb) (by omega) (by simp only [List.length_nil]; omega)).2.2.2
        refine h1.trans (le_mul_of_one_le_left hε ?_)
        exact_mod_cast (by omega : 1 ≤ l - j)
    | cons x xs ih =>
      intro ys j hx hy hxl hyl
      rw [List.length_cons] at hxl
      have hx' : ∀ b ∈ xs, b.length = 64 := fun b hb => hx b (by simp [hb])
      have e : ((l - j : Nat) : ℚ) * ε = ε + (l - (j + 1) : Nat) * ε := by
        rw [show l - j = l - (j + 1) + 1 by omega]
        push_cast
        ring
      cases ys with
      | nil =>
        have h1 := (h x x xs [] default (hx x (by simp)) (hx x (by simp)) hx' (by intro b hb; cases hb) (by omega) (by simp only [List.length_nil]; omega)).2.2.2
        refine h1.trans (le_mul_of_one_le_left hε ?_)
        exact_mod_cast (by omega : 1 ≤ l - j)
      | cons y ys =>
        rw [List.length_cons] at hyl
        have hy' : ∀ b ∈ ys, b.length = 64 := fun b hb => hy b (by simp [hb])
        have h1 := h x y xs ys default (hx x (by simp)) (hy y (by simp)) hx' hy' (by omega) (by omega)
        rw [loss, e]
        split
        · exact add_le_add h1.1 (ih ys (j + 1) hx' hy' (by omega) (by omega))
        · refine add_le_add h1.2.1 ?_
          have h2 := avg_mono fun z : Digest => hr xs (cascade z ys) hx' (by omega)
          rw [avg_const] at h2
          refine h2.trans (mul_le_mul_of_nonneg_right ?_ hε)
          exact_mod_cast (by omega : xs.length ≤ l - (j + 1))
  exact key xs ys 0 hx hy hxl hyl

/-- **C95.** In figures, for the program: messages of fewer than `64 * l - 8` octets, at most `n` of them. -/
theorem C95_figures {p : Program} (hp : IsProgram Files.lib sources p) (T : Target) (fuel depth : Nat) (hd : 8 ≤ depth)
    {α : Type} [Fintype α] (secret : α → List U8) (hs : ∀ x, 8 * (secret x).length < 2 ^ T.bits)
    (cut : List U8 → List (List U8)) (hcut : ∀ m, (cut m).flatten = m) (ε : ℚ) (l : Nat) (hε : 0 ≤ ε)
    (h : ∀ x y xs ys t, x.length = 64 → y.length = 64 → (∀ b ∈ xs, b.length = 64) → (∀ b ∈ ys, b.length = 64) → xs.length < l → ys.length < l →
      against compression (same x xs ys) ≤ ε ∧ against compression (differ x y xs ys) ≤ ε ∧
      against compression (reach x xs t) ≤ ε ∧ against compression (itself x xs) ≤ ε)
    (d : Distinguisher) (n : Nat) (ha : Asks (fun m => Possible T m ∧ m.length + 8 < 64 * l) n d) :
    against (fun x => program p T fuel depth (secret x) cut) d ≤
      pairAdvantage secret (fun k k' => d.run (nested k k')) + (avg fun k => against compression (outer k d)) +
      n * (n - 1) / 2 * (1 / 2 ^ 256 + l * ε) := by
  have h1 := C95_program hp T fuel depth hd secret hs cut hcut d n (Asks.imp (fun m hm => hm.1) d n ha)
  have h2 : pairs (fun m m' => loss (blocksAfter m) (blocksAfter m')) [] d ≤ n * (n - 1) / 2 * (l * ε) := by
    have h3 := pairs_mono (w := fun m m' => loss (blocksAfter m) (blocksAfter m')) (w' := fun _ _ => l * ε + 0) (fun m m' hm hm' _ => by
      rw [add_zero]
      exact C95_loss ε l hε h _ _ (blocksAfter_block m) (blocksAfter_block m') (by rw [blocksAfter_length]; have := hm.2; omega)
        (by rw [blocksAfter_length]; have := hm'.2; omega)) d n ha [] (by intro p hp; cases hp)
    refine h3.trans ((pairs_const_add (l * ε) (by positivity) (fun _ _ => 0) d n ha []).trans (le_of_eq ?_))
    rw [pairs_zero, add_zero, sum_nil]
  rw [hmacBound] at h1
  refine h1.trans ?_
  have e : (n * (n - 1) / 2 ^ 257 : ℚ) = n * (n - 1) / 2 * (1 / 2 ^ 256) := by
    rw [show (2 : ℚ) ^ 257 = 2 * 2 ^ 256 by rw [← pow_succ']]
    field_simp
  rw [e, mul_add]
  linarith

theorem asks_forger {T : Target} (f : Forger) (asked : List (List U8)) (n : Nat) (hf : f.Within (Possible T) asked n) :
    Asks (Possible T) (n + 1) f.reduce := by
  induction f generalizing asked n with
  | giveUp => trivial
  | forge m tag => exact ⟨hf.1, by omega, fun _ => trivial⟩
  | ask m next ih =>
    obtain ⟨hm, hn, hw⟩ := hf
    refine ⟨hm, by omega, fun y => ?_⟩
    rw [show n + 1 - 1 = n - 1 + 1 by omega]
    exact ih _ _ _ (hw _)

/-- **C95.** Forgeries (C92), reduced to the compression function: with up to `n` messages authenticated and up to `v` attempts the probability
of a forgery is at most `v * 2 ^ -256` and the bound for `v` distinguishers with `n + 1` questions. -/
theorem C95_forgery {p : Program} (hp : IsProgram Files.lib sources p) (T : Target) (fuel depth : Nat) (hd : 8 ≤ depth)
    {α : Type} [Fintype α] (secret : α → List U8) (hs : ∀ x, 8 * (secret x).length < 2 ^ T.bits)
    (cut : List U8 → List (List U8)) (hcut : ∀ m, (cut m).flatten = m) (f : Prober) (n v : Nat) (hf : f.Within (Possible T) n v) :
    (avg fun x => f.wins (fun m => mac p T fuel depth (secret x) (cut m)) []) ≤
      ∑ j ∈ Finset.range v, hmacBound secret (n + 1) (f.bet j []).reduce + v / 2 ^ 256 := by
  refine (Forgery.C92_attempts hp T fuel depth hd secret hs cut hcut f n v hf).trans (add_le_add (Finset.sum_le_sum fun j _ => ?_) le_rfl)
  exact C95_hmac secret _ _ (Asks.imp (fun _ => Possible.le) _ _ (asks_forger _ [] n (bet_within f n v hf j [])))

theorem asks_chain (ok : List U8 → Prop) (hok : ∀ u : Digest, ok u.toList) (n j : Nat) (hj : j ≤ n) (u acc : Digest) (k : Digest → Distinguisher)
    (h : ∀ t, Asks ok (n - j) (k t)) : Asks ok n (chain j u acc k) := by
  induction j generalizing n u acc with
  | zero => exact h _
  | succ j ih =>
    exact ⟨hok _, by omega, fun y => ih (n - 1) (by omega) _ _ fun t => by rw [show n - 1 - j = n - (j + 1) by omega]; exact h t⟩

theorem asks_blocks (ok : List U8 → Prop) (hok : ∀ u : Digest, ok u.toList) (salt : List U8) (hs : ∀ i, ok (salt ++ Spec.beBytes 4 i)) (c : Nat)
    (hc : 1 ≤ c) (n i l : Nat) (hl : c * l ≤ n) (k : List U8 → Distinguisher) (h : ∀ t, Asks ok (n - c * l) (k t)) :
    Asks ok n (Spec.KeyGames.blocks salt c i l k) := by
  induction l generalizing n i k with
  | zero => exact h _
  | succ l ih =>
    rw [Nat.mul_add] at hl h
    exact ⟨hs _, by omega, fun u => asks_chain ok hok _ _ (by omega) _ _ _ fun t => ih _ _ (by omega) _ fun rest => by
      rw [show n - 1 - (c - 1) - c * l = n - (c * l + c * 1) by omega]; exact h _⟩

theorem asks_attacker {T : Target} (a : Attacker) (used : List (List U8)) (n : Nat) (ha : a.Within (DerivedKeys.Possible T) used n) :
    Asks (Possible T) n a.reduce := by
  induction a generalizing used n with
  | answer yes => trivial
  | ask salt c len next ih =>
    obtain ⟨hok, -, hc, -, hn, hw⟩ := ha
    have hB : 2 ^ 32 ≤ 2 ^ T.bits := by rcases T.bits_cases with h | h <;> simp [h]
    refine asks_blocks (Possible T) (fun u => ?_) salt (fun i => ?_) c hc n 0 _ hn _ fun t => ih _ _ _ (hw _)
    · rw [Possible, u.toList_length]
      omega
    · rw [Possible, List.length_append, beBytes_length]
      have := hok.1
      omega

/-- **C95.** Derived keys (C91), reduced to the compression function: with up to `n` iterations in total the keys that `pbkdf2_sha256` derives
from a secret password with different salts differ from random keys by at most the bound for a distinguisher with `n` questions and
`n * (n - 1) / 2 ^ 257`. -/
theorem C95_keys {p : Program} (hp : IsProgram Files.lib sources p) (T : Target) (fuel depth : Nat) (hd : 8 ≤ depth)
    {α : Type} [Fintype α] (secret : α → List U8) (hs : ∀ x, 8 * (secret x).length < 2 ^ T.bits)
    (a : Attacker) (n : Nat) (ha : a.Within (DerivedKeys.Possible T) [] n) :
    |(avg fun x => real (DerivedKeys.kdf p T fuel depth (secret x)) a) - ideal a| ≤ hmacBound secret n a.reduce + n * (n - 1) / 2 ^ 257 :=
  (DerivedKeys.C91_random hp T fuel depth hd secret hs a n ha).trans
    (add_le_add (C95_hmac secret _ _ (Asks.imp (fun _ => Possible.le) _ _ (asks_attacker a [] n ha))) le_rfl)

theorem asks_scrypt {T : Target} (P : Spec.ScryptGames.Params) (hU : ScryptKeys.Usable T P) (hN : 1 ≤ P.N) (a : Spec.ScryptGames.Attacker)
    (used : List (List U8)) (q n : Nat) (ha : a.Within P (ScryptKeys.Possible T) used q) (hc : a.Cost P n) :
    Asks (Possible T) n (a.reduce P) := by
  induction a generalizing used q n with
  | answer yes => trivial
  | ask salt len next ih =>
    obtain ⟨hok, -, -, -, hw⟩ := ha
    obtain ⟨hn, hc⟩ := hc
    have hB : 2 ^ 32 ≤ 2 ^ T.bits := by rcases T.bits_cases with h | h <;> simp [h]
    have hD : ∀ u : Digest, Possible T u.toList := fun u => by
      rw [Possible, u.toList_length]
      omega
    refine asks_blocks (Possible T) hD salt (fun i => ?_) 1 le_rfl n 0 _ (by omega) _ fun b =>
      asks_blocks (Possible T) hD _ (fun i => ?_) 1 le_rfl _ 0 _ (by omega) _ fun t => ?_
    · rw [Possible, List.length_append, beBytes_length]
      have := hok.1
      omega
    · rw [Possible, List.length_append, beBytes_length, ScryptKeys.mix_length P hN]
      have := hU.hash
      omega
    · rw [Nat.one_mul, Nat.one_mul, Nat.sub_sub]
      exact ih _ _ _ _ (hw _) (hc _)

/-- **C95.** Keys derived by scrypt (C93), reduced to the compression function and to how evenly the mixing function distributes its
values. -/
theorem C95_scrypt {p : Program} (hp : IsProgram Files.lib sources p) (T : Target) (fuel depth : Nat) (hd : 8 ≤ depth)
    (P : Spec.ScryptGames.Params) (hU : ScryptKeys.Usable T P) {α : Type} [Fintype α] (secret : α → List U8)
    (hs : ∀ x, 8 * (secret x).length < 2 ^ T.bits) (a : Spec.ScryptGames.Attacker) (q n : Nat)
    (ha : a.Within P (ScryptKeys.Possible T) [] q) (hc : a.Cost P n) :
    |(avg fun x => Spec.ScryptGames.real (ScryptKeys.kdf p T fuel depth P (secret x)) a) - Spec.ScryptGames.ideal a| ≤
      hmacBound secret n (a.reduce P) + q * (3 * q - 1) / 2 * P.share := by
  have hN : 1 ≤ P.N := by
    obtain ⟨k, hk⟩ := hU.N
    rw [hk]
    exact Nat.one_le_two_pow
  exact (ScryptKeys.C93_random hp T fuel depth hd P hU secret hs a q ha).trans
    (add_le_add (C95_hmac secret _ _ (Asks.imp (fun _ => Possible.le) _ _ (asks_scrypt P hU hN a [] q n ha hc))) le_rfl)

/-- A distinguisher that meets the hypotheses: the second question depends on the first answer. -/
def example_ : Distinguisher := .query [1] fun y => .query (2 :: y.toList.take 3) fun y' => .answer (y = y')

theorem example_asks (T : Target) : Asks (fun m => Possible T m ∧ m.length + 8 < 64 * 1) 2 example_ := by
  have hB : 2 ^ 32 ≤ 2 ^ T.bits := by rcases T.bits_cases with h | h <;> simp [h]
  refine ⟨⟨?_, ?_⟩, by decide, fun t => ⟨⟨?_, ?_⟩, by decide, fun t' => trivial⟩⟩
  all_goals simp only [Possible, List.length_cons, List.length_nil, List.length_take]; omega

/-- The theorems applied to that distinguisher and a random key of 32 octets. -/
example (T : Target) := C95_program C86_text.1 T 0 8 le_rfl (fun x : List.Vector U8 32 => x.toList)
  (fun x => by have := T.two_pow_ge; simp only [List.Vector.toList_length]; omega) _ Forgery.singles example_ 2
  (Asks.imp (fun _ h => h.1) _ _ (example_asks T))

example := C95_hmac (fun x : List.Vector U8 32 => x.toList) example_ 2 (Asks.imp (fun _ h => h.1) _ _ (example_asks ⟨.w64, true⟩))

example (k t : Digest) (T : Target) := C95_questions _ example_ 2 (example_asks T) k t (List.replicate 64 1) (List.replicate 64 2) [] [List.replicate 64 3]
  (by simp) (by simp)

theorem against_le_one (d : Distinguisher) : against compression d ≤ 1 := by
  have h1 := Spec.Games.avg_nonneg fun k => Spec.PrfGames.run_nonneg (compression k) d
  have h2 := Spec.Games.avg_le_one fun k => Spec.PrfGames.run_le_one (compression k) d
  have h3 := Spec.KeyGames.random_nonneg d []
  have h4 := Spec.KeyGames.random_le_one d []
  rw [against, abs_le]
  constructor <;> linarith

/-- Every advantage is at most `1`, so there is some `ε` as in `C95_loss` and `C95_figures`. They are of interest with a smaller one. -/
example := C95_loss 1 1 zero_le_one (fun _ _ _ _ _ _ _ _ _ _ _ => ⟨against_le_one _, against_le_one _, against_le_one _, against_le_one _⟩)
  [List.replicate 64 1] [List.replicate 64 2] (by simp) (by simp) le_rfl le_rfl

example (T : Target) := C95_figures C86_text.1 T 0 8 le_rfl (fun x : List.Vector U8 32 => x.toList)
  (fun x => by have := T.two_pow_ge; simp only [List.Vector.toList_length]; omega) _ Forgery.singles 1 1 zero_le_one
  (fun _ _ _ _ _ _ _ _ _ _ _ => ⟨against_le_one _, against_le_one _, against_le_one _, against_le_one _⟩) example_ 2 (example_asks T)

example (T : Target) := C95_forgery C86_text.1 T 0 8 le_rfl (fun x : List.Vector U8 32 => x.toList)
  (fun x => by have := T.two_pow_ge; simp only [List.Vector.toList_length]; omega) _ Forgery.singles Forgery.prober_ 1 3 (Forgery.prober_within T)

example (T : Target) := C95_keys C86_text.1 T 0 8 le_rfl (fun x : List.Vector U8 16 => x.toList)
  (fun x => by have := T.two_pow_ge; simp only [List.Vector.toList_length]; omega) DerivedKeys.example_ 6000 (DerivedKeys.example_within T)

example (T : Target) := C95_scrypt C86_text.1 T 0 8 le_rfl _ (ScryptKeys.example_within T).1 (fun x : List.Vector U8 16 => x.toList)
  (fun x => by have := T.two_pow_ge; simp only [List.Vector.toList_length]; omega) (.ask [1] 64 fun k => .answer (k.head? = some 0)) 1 1028
  ⟨(ScryptKeys.example_within T).2.1.1.1, by simp, by decide, by decide, fun _ => trivial⟩ ⟨by decide, fun _ => trivial⟩

end Verif.Props.HmacRandom
