import Verif.Proof.SealGames
import Verif.Props.Confidential
import Verif.Props.Forgery

/-!
Property C99: a message that is encrypted by a `Cipher` and whose initialization vector and ciphertext are then authenticated by an `HMac` is
safe also against an attacker who can have boxes of their own opened, which C57, C78 and C79 show to be the end of encryption alone.
The attackers and the games are in `Spec/SealGames.lean`.
-/

namespace Verif.Props.Sealed
open Verif Verif.Source Verif.Text Verif.Props.Source Verif.Props.FromText Verif.AesCbc Spec.SealGames
open Spec.Games (avg avg_const avg_mono avg_sum avg_comm avg_add avg_close Block Op)
open Verif.Props.Confidential (cipher cipher_eq octets)
open Verif.Props.Forgery (mac)

attribute [local irreducible] avg

/-- `Cipher::new(iv)`, `init(key)`, `write(m)`, `flush()` of the program `p`. -/
def encrypted (p : Program) (T : Target) (fuel depth : Nat) (key : List U8) (iv : Block) (m : List U8) : List U8 :=
  cipher p T fuel depth key iv [.write m, .flush]

/-- `HMac::new(key)`, `update(iv)`, `update(c)`, `digest()`. -/
def tag (p : Program) (T : Target) (fuel depth : Nat) (key : List U8) (iv : Block) (c : List U8) : List U8 :=
  mac p T fuel depth key [iv.toList, c]

/-- The answer is an `Ok`. -/
def isOk : Val → Bool
  | .enum .Ok _ => true
  | _ => false

/-- `Decipher::new(iv)`, `init(key)`, `write(c)`, `flush()`: the octets of the answers, if all are `Ok`. -/
def decrypted (p : Program) (T : Target) (fuel depth : Nat) (key : List U8) (iv : Block) (c : List U8) : Option (List U8) :=
  match sessionIn p T fuel depth (.aes_cbc_Decipher_new, [bytes iv.toList]) ((messageCalls key [c]).map decipherCall) with
  | .ok answers => if answers.all isOk then some (answers.flatMap octets) else none
  | .error _ => none

/-- The message can be sealed. -/
def Sealable (T : Target) (m : List U8) : Prop := 8 * (m.length + 96) < 2 ^ T.bits

/-- The tag of the ciphertext can be computed. -/
def Checkable (T : Target) (c : List U8) : Prop := 8 * (c.length + 80) < 2 ^ T.bits

theorem bits_isize (T : Target) : 2 ^ T.bits = 2 * (T.isizeMax + 1) := by
  rcases T with ⟨_ | _, _⟩ <;> (simp only [Target.isizeMax, Target.bits]; decide)

theorem plain_message (m : List U8) : Spec.Games.plain [] [.write m, .flush] = Spec.Cbc.pkcs7 16 m := by
  simp [Spec.Games.plain]

theorem size_message (m : List U8) : Spec.Games.size [.write m, .flush] = m.length / 16 + 1 := by
  rw [Spec.Games.size, plain_message, pkcs7_length]
  omega

theorem possible_message (T : Target) (m : List U8) (h : Sealable T m) :
    ∀ op ∈ [Op.write m, .flush], Confidential.Possible T op := by
  have := bits_isize T
  unfold Sealable at h
  intro op hop b hb
  subst hb
  simp only [List.mem_cons, List.not_mem_nil, or_false, reduceCtorEq, Op.write.injEq] at hop
  subst hop
  omega

section
variable {p : Program} (hp : IsProgram Files.lib sources p)
include hp

theorem encrypted_eq (T : Target) (fuel depth : Nat) (hf : 65 ≤ fuel) (hd : 8 ≤ depth) (key : List U8)
    (hk : key.length = 16 ∨ key.length = 24 ∨ key.length = 32) (iv : Block) (m : List U8) (hm : Sealable T m) :
    encrypted p T fuel depth key iv m = Spec.Cbc.encrypt key iv.toList (Spec.Cbc.pkcs7 16 m) := by
  rw [encrypted, cipher_eq hp T fuel depth hf hd key hk iv _ (possible_message T m hm), plain_message]

theorem encrypted_length (T : Target) (fuel depth : Nat) (hf : 65 ≤ fuel) (hd : 8 ≤ depth) (key : List U8)
    (hk : key.length = 16 ∨ key.length = 24 ∨ key.length = 32) (iv : Block) (m : List U8) (hm : Sealable T m) :
    (encrypted p T fuel depth key iv m).length = 16 * (m.length / 16 + 1) := by
  rw [encrypted_eq hp T fuel depth hf hd key hk iv m hm, encrypt_length, pkcs7_length]
  omega

theorem decrypted_eq (T : Target) (fuel depth : Nat) (hf : 65 ≤ fuel) (hd : 8 ≤ depth) (key : List U8)
    (hk : key.length = 16 ∨ key.length = 24 ∨ key.length = 32) (iv : Block) (m : List U8) (hm : Sealable T m) :
    decrypted p T fuel depth key iv (Spec.Cbc.encrypt key iv.toList (Spec.Cbc.pkcs7 16 m)) = some m := by
  have hT := bits_isize T
  unfold Sealable at hm
  have e : (⟨iv.toList.toArray, by simp⟩ : Vector U8 16).toList = iv.toList := by simp [Vector.toList]
  obtain ⟨rs, last, h1, h2⟩ := C86_decrypt hp T fuel depth hf hd ⟨iv.toList.toArray, by simp⟩ key hk m
    [Spec.Cbc.encrypt key iv.toList (Spec.Cbc.pkcs7 16 m)] (by
      intro b hb
      rw [List.mem_singleton.mp hb, encrypt_length, pkcs7_length]
      omega) (by rw [e]; simp)
  rw [e] at h1
  have o1 (rs : List (List U8)) : (rs.map fun o => okVal (bytes o)).flatMap octets = rs.flatten := by
    induction rs with
    | nil => rfl
    | cons r rs ih => rw [List.map_cons, List.flatMap_cons, ih, Confidential.octets_bytes, List.flatten_cons]
  have o2 : (okVal .unit :: (rs.map (fun o => okVal (bytes o)) ++ [okVal (bytes last)])).all isOk = true := by
    simp [isOk, okVal]
  have o3 : octets (okVal .unit) = [] := rfl
  rw [decrypted, h1]
  dsimp only
  rw [if_pos o2, List.flatMap_cons, List.flatMap_append, o1, o3, List.nil_append, List.flatMap_singleton, Confidential.octets_bytes, h2]

/-- **C99.** The recipient of a sealed message finds the tag right and gets the message. -/
theorem C99_opens (T : Target) (fuel depth : Nat) (hf : 65 ≤ fuel) (hd : 8 ≤ depth) (key macKey : List U8)
    (hk : key.length = 16 ∨ key.length = 24 ∨ key.length = 32) (iv : Block) (m : List U8) (hm : Sealable T m) :
    reply (tag p T fuel depth macKey) (decrypted p T fuel depth key) iv (encrypted p T fuel depth key iv m)
      (tag p T fuel depth macKey iv (encrypted p T fuel depth key iv m)) = .message m := by
  rw [reply, if_pos rfl, encrypted_eq hp T fuel depth hf hd key hk iv m hm, decrypted_eq hp T fuel depth hf hd key hk iv m hm]

theorem prober_within (T : Target) (fuel depth : Nat) (hf : 65 ≤ fuel) (hd : 8 ≤ depth) (key : List U8)
    (hk : key.length = 16 ∨ key.length = 24 ∨ key.length = 32) (right : Bool) (a : Attacker) (n q v : Nat)
    (ha : a.Within (Sealable T) (Checkable T) n q v) (ivs : List Block) :
    (a.prober (encrypted p T fuel depth key) right ivs).Within (Forgery.Possible T) q v := by
  induction a generalizing n q v ivs with
  | answer yes => cases ivs <;> trivial
  | send l r next ih =>
    obtain ⟨h1, h2, -, -, hq, hn⟩ := ha
    cases ivs with
    | nil => trivial
    | cons iv ivs =>
      refine ⟨?_, hq, fun t => ?_⟩
      rotate_left
      · generalize encrypted p T fuel depth key iv (if right then r else l) = c
        dsimp only
        by_cases h : c.length = ciphertextSize l ∧ t.length = 32
        · rw [if_pos h]
          exact ih _ _ _ _ _ _ (hn _ _ _ h.1 h.2) _
        · rw [if_neg h]
          trivial
      have hx : Sealable T (if right then r else l) := by cases right <;> assumption
      rw [Forgery.Possible, List.length_append, encrypted_length hp T fuel depth hf hd key hk iv _ hx]
      unfold Sealable at hx
      simp only [List.Vector.toList_length]
      omega
  | submit iv c tag next ih =>
    obtain ⟨h1, hv, hn⟩ := ha
    have : (Forgery.Possible T) (iv.toList ++ c) := by
      rw [Forgery.Possible, List.length_append]
      unfold Checkable at h1
      simp only [List.Vector.toList_length]
      omega
    cases ivs <;> exact ⟨this, hv, fun _ => ih _ _ _ _ (hn _) _⟩

omit hp in
theorem deaf_fair (T : Target) (t : Block → List U8 → List U8) (a : Attacker) (n q v : Nat) (ha : a.Within (Sealable T) (Checkable T) n q v) :
    (a.deaf t).Fair ∧ ∀ right, ((a.deaf t).side right).Within (Confidential.Possible T) n := by
  induction a generalizing n q v with
  | answer yes => exact ⟨trivial, fun _ => trivial⟩
  | send l r next ih =>
    obtain ⟨h1, h2, h3, h4, hq, hn⟩ := ha
    refine ⟨⟨by rw [size_message, size_message, h3], fun iv c => ?_⟩, fun right => ?_⟩
    · dsimp only
      split
      · rename_i h
        exact (ih iv c _ _ _ _ (hn _ _ _ h.1 h.2)).1
      · trivial
    · have hw (iv : Block) (c : List U8) : ((if c.length = ciphertextSize l ∧ (t iv c).length = 32 then (next iv c (t iv c)).deaf t
          else .answer false).side right).Within (Confidential.Possible T) (n - (l.length / 16 + 1)) := by
        split
        · rename_i h
          exact (ih iv c _ _ _ _ (hn _ _ _ h.1 h.2)).2 right
        · trivial
      cases right with
      | false =>
        exact ⟨possible_message T l h1, by rw [if_neg (by decide), size_message]; exact h4, fun iv c => by
          rw [if_neg (by decide), size_message]; exact hw iv c⟩
      | true =>
        exact ⟨possible_message T r h2, by rw [if_pos rfl, size_message, ← h3]; exact h4, fun iv c => by
          rw [if_pos rfl, size_message, ← h3]; exact hw iv c⟩
  | submit iv c tag next ih => exact ih _ _ _ _ (ha.2.2 _)

/-- The chance of an attacker that sees the sealed left messages, or the right ones. Both keys are random. -/
def chance (p : Program) (T : Target) (fuel depth k : Nat) {α : Type} [Fintype α] (secret : α → List U8) (right : Bool) (a : Attacker) : ℚ :=
  avg fun x => avg fun key : List.Vector U8 k =>
    real (encrypted p T fuel depth key.toList) (tag p T fuel depth (secret x)) (decrypted p T fuel depth key.toList) right [] a

/-- How well HMAC is told from a random function by the distinguishers that come from an attacker who has `v` boxes opened, in the mean over
the keys of the `Cipher` and the initialization vectors of the `q` boxes sealed. -/
noncomputable def forging (p : Program) (T : Target) (fuel depth k q v : Nat) {α : Type} [Fintype α] (secret : α → List U8) (right : Bool)
    (a : Attacker) : ℚ :=
  avg fun key : List.Vector U8 k => avg fun ivs : List.Vector Block q =>
    ∑ j ∈ Finset.range v, ((a.prober (encrypted p T fuel depth key.toList) right ivs.toList).bet j []).reduce.advantage secret

/-- Without a recipient the chance is about the same. -/
theorem hop (T : Target) (fuel depth : Nat) (hf : 65 ≤ fuel) (hd : 8 ≤ depth) (k : Nat) (hk : k = 16 ∨ k = 24 ∨ k = 32)
    {α : Type} [Fintype α] (secret : α → List U8) (hs : ∀ x, 8 * (secret x).length < 2 ^ T.bits) (right : Bool)
    (a : Attacker) (n q v : Nat) (ha : a.Within (Sealable T) (Checkable T) n q v) :
    |chance p T fuel depth k secret right a - (avg fun x => avg fun key : List.Vector U8 k =>
        Spec.Games.real (cipher p T fuel depth key.toList) ((a.deaf (tag p T fuel depth (secret x))).side right))| ≤
      forging p T fuel depth k q v secret right a + v / 2 ^ 256 := by
  let cut : List U8 → List (List U8) := fun m => [m.take 16, m.drop 16]
  have hcut : ∀ m, (cut m).flatten = m := fun m => by simp [cut]
  have htag (x : α) : tag p T fuel depth (secret x) = fun iv c => mac p T fuel depth (secret x) (cut (iv.toList ++ c)) := by
    funext iv c
    simp [tag, cut]
  have h1 (x : α) (key : List.Vector U8 k) := deaf_close (cipher p T fuel depth key.toList) (fun m => mac p T fuel depth (secret x) (cut m))
    (decrypted p T fuel depth key.toList) right a n q v ha [] (by simp) (fun iv m hm => by
      have hl := encrypted_length hp T fuel depth hf hd key.toList (by simpa using hk) iv m hm
      refine ⟨hl, ?_⟩
      change (encrypted p T fuel depth key.toList iv m).length = _ at hl
      show (mac p T fuel depth (secret x) (cut (iv.toList ++ encrypted p T fuel depth key.toList iv m))).length = 32
      rw [Forgery.mac_eq hp T fuel depth hd (secret x) (hs x)]
      · simp
      · rw [hcut, Forgery.Possible, List.length_append, hl]
        unfold Sealable at hm
        simp only [List.Vector.toList_length]
        omega)
  have h2 := avg_close _ fun x => avg_close _ fun key => h1 x key
  simp only [← htag] at h2
  refine h2.trans ?_
  rw [avg_comm]
  have h3 (key : List.Vector U8 k) (ivs : List.Vector Block q) := Forgery.C92_attempts hp T fuel depth hd secret hs cut hcut
    (a.prober (encrypted p T fuel depth key.toList) right ivs.toList) q v
    (prober_within hp T fuel depth hf hd key.toList (by simpa using hk) right a n q v ha ivs.toList)
  have h4 : (v / 2 ^ 256 : ℚ) = avg fun _ : List.Vector U8 k => avg fun _ : List.Vector Block q => (v / 2 ^ 256 : ℚ) := by
    rw [avg_const, avg_const]
  rw [forging, h4, ← avg_add]
  refine avg_mono fun key => ?_
  rw [← avg_add, avg_comm]
  exact avg_mono fun ivs => h3 key ivs

/-- **C99.** An attacker has messages sealed, naming two of equal size each time, and sees initialization vector, ciphertext and tag of one
of the two, always on the same side; and it submits boxes of its own to the recipient, who checks the tag, decrypts, and tells the message or
that it is garbage; all this in any order, every step chosen with the knowledge of the earlier ones. (The boxes it got are not opened for it.)
It does not find out the side, up to the advantages of distinguishers for AES and for HMAC made from it and `n * (n - 1) / 2 ^ 128 + v / 2 ^ 255`,
when at most `n` blocks are sealed and `v` boxes submitted. The key of the `Cipher` is random; that of the `HMac` is drawn in any way, and
independently. -/
theorem C99_sealed (T : Target) (fuel depth : Nat) (hf : 65 ≤ fuel) (hd : 8 ≤ depth) (k : Nat) (hk : k = 16 ∨ k = 24 ∨ k = 32)
    {α : Type} [Fintype α] [Nonempty α] (secret : α → List U8) (hs : ∀ x, 8 * (secret x).length < 2 ^ T.bits)
    (a : Attacker) (n q v : Nat) (ha : a.Within (Sealable T) (Checkable T) n q v) :
    |chance p T fuel depth k secret false a - chance p T fuel depth k secret true a| ≤
      (avg fun x => ((a.deaf (tag p T fuel depth (secret x))).side false).reduce.advantage k) +
      (avg fun x => ((a.deaf (tag p T fuel depth (secret x))).side true).reduce.advantage k) +
      n * (n - 1) / 2 ^ 128 +
      forging p T fuel depth k q v secret false a + forging p T fuel depth k q v secret true a + v / 2 ^ 255 := by
  have h1 := hop hp T fuel depth hf hd k hk secret hs false a n q v ha
  have h2 := hop hp T fuel depth hf hd k hk secret hs true a n q v ha
  have h3 := avg_close _ fun x => Confidential.C89_left_or_right hp T fuel depth hf hd k hk (a.deaf (tag p T fuel depth (secret x))) n
    (deaf_fair T _ a n q v ha).1 ((deaf_fair T _ a n q v ha).2 false) ((deaf_fair T _ a n q v ha).2 true)
  rw [avg_add, avg_add, avg_const] at h3
  have e : (v / 2 ^ 255 : ℚ) = v / 2 ^ 256 + v / 2 ^ 256 := by ring
  rw [e]
  rw [abs_le] at *
  constructor <;> linarith [h1.1, h1.2, h2.1, h2.2, h3.1, h3.2]
end

/-! ### What must be authenticated -/

/-- An attacker that has one of two messages sealed, changes a bit in each octet of the initialization vector, and submits the result. -/
def flip : Attacker :=
  .send (List.replicate 16 0) (List.replicate 16 2) fun iv c t =>
    .submit (iv.map (· ^^^ 1)) c t fun r => .answer (r = .message (List.replicate 16 1))

theorem map_flip (a : U8) : a ^^^ 1 ≠ a := by
  intro h
  have : a ^^^ (a ^^^ 1) = a ^^^ a := congrArg (a ^^^ ·) h
  rw [← BitVec.xor_assoc, BitVec.xor_self, BitVec.zero_xor] at this
  exact absurd this (by decide)

theorem flip_ne (iv : Block) : iv.map (· ^^^ (1 : U8)) ≠ iv := by
  intro h
  have h1 := congrArg List.Vector.head h
  rw [List.Vector.head_map] at h1
  exact map_flip _ h1

theorem xor_flip (xs : List U8) (b : U8) :
    Spec.xorBytes (List.replicate xs.length b) xs = Spec.xorBytes (List.replicate xs.length (b ^^^ 1)) (xs.map (· ^^^ 1)) := by
  induction xs with
  | nil => rfl
  | cons x xs ih =>
    simp only [List.length_cons, List.replicate_succ, List.map_cons, Spec.xorBytes, List.zipWith_cons_cons] at ih ⊢
    rw [← ih]
    congr 1
    rw [show b ^^^ 1 ^^^ (x ^^^ 1) = b ^^^ x ^^^ (1 ^^^ 1) by ac_rfl, BitVec.xor_self, BitVec.xor_zero]

theorem encrypt_flip (key : List U8) (iv : Block) (b : U8) :
    Spec.Cbc.encrypt key iv.toList (Spec.Cbc.pkcs7 16 (List.replicate 16 b)) =
      Spec.Cbc.encrypt key (iv.map (· ^^^ (1 : U8))).toList (Spec.Cbc.pkcs7 16 (List.replicate 16 (b ^^^ 1))) := by
  have hb (b : U8) : Spec.Cbc.blocks (Spec.Cbc.pkcs7 16 (List.replicate 16 b)) =
      List.replicate 16 b :: Spec.Cbc.blocks (Spec.Cbc.pkcs7 16 []) := by
    rw [← blocks_cons _ _ (List.length_replicate ..)]
    simp [Spec.Cbc.pkcs7]
  have h := xor_flip iv.toList b
  rw [List.Vector.toList_length] at h
  rw [Spec.Cbc.encrypt, Spec.Cbc.encrypt, hb, hb, Spec.Cbc.encBlocks, Spec.Cbc.encBlocks, List.Vector.toList_map, h]

/-- The attacker can try: one box of two blocks is sealed, and one submitted. -/
theorem flip_within (T : Target) : flip.Within (Sealable T) (Checkable T) 2 1 1 := by
  have := T.two_pow_ge
  have h (b : U8) : Sealable T (List.replicate 16 b) := by
    rw [Sealable, List.length_replicate]
    omega
  refine ⟨h 0, h 2, rfl, by decide, le_rfl, fun iv c t hc _ => ⟨?_, le_rfl, fun _ => trivial⟩⟩
  rw [Checkable, hc, ciphertextSize, List.length_replicate]
  omega

variable {p : Program} (hp : IsProgram Files.lib sources p)
include hp

theorem flip_seen (T : Target) (fuel depth : Nat) (hf : 65 ≤ fuel) (hd : 8 ≤ depth) (key : List U8)
    (hk : key.length = 16 ∨ key.length = 24 ∨ key.length = 32) (t : List U8 → List U8) (right : Bool) :
    real (encrypted p T fuel depth key) (fun _ c => t c) (decrypted p T fuel depth key) right [] flip = if right then 0 else 1 := by
  have hT := T.two_pow_ge
  have h (b : U8) : Sealable T (List.replicate 16 b) := by
    rw [Sealable, List.length_replicate]
    omega
  have h1 (iv : Block) (b : U8) : decrypted p T fuel depth key (iv.map (· ^^^ (1 : U8))) (encrypted p T fuel depth key iv (List.replicate 16 b)) =
      some (List.replicate 16 (b ^^^ 1)) := by
    rw [encrypted_eq hp T fuel depth hf hd key hk iv _ (h b), encrypt_flip, decrypted_eq hp T fuel depth hf hd key hk _ _ (h _)]
  have h2 (iv : Block) (c t : List U8) : (iv.map (· ^^^ (1 : U8)), c, t) ∉ [(iv, c, t)] := by
    intro h
    rw [List.mem_singleton] at h
    exact flip_ne iv (congrArg Prod.fst h)
  rw [flip, real, ← avg_const (α := Block) (if right then 0 else 1)]
  refine congrArg avg (funext fun iv => ?_)
  simp only [real, if_neg (h2 _ _ _), reply, if_true]
  cases right with
  | false =>
    simp only [Bool.false_eq_true, if_false, h1]
    rfl
  | true =>
    simp only [if_true, h1]
    rfl

/-- **C99.** The initialization vector must be authenticated too: if the tag is computed from the ciphertext only, in whatever way `t`, or if
there is none, the attacker `flip`, with one box sealed and one submitted, always finds out the side. -/
theorem C99_iv (T : Target) (fuel depth : Nat) (hf : 65 ≤ fuel) (hd : 8 ≤ depth) (key : List U8)
    (hk : key.length = 16 ∨ key.length = 24 ∨ key.length = 32) (t : List U8 → List U8) :
    flip.Within (Sealable T) (Checkable T) 2 1 1 ∧
    real (encrypted p T fuel depth key) (fun _ c => t c) (decrypted p T fuel depth key) false [] flip = 1 ∧
    real (encrypted p T fuel depth key) (fun _ c => t c) (decrypted p T fuel depth key) true [] flip = 0 :=
  ⟨flip_within T, flip_seen hp T fuel depth hf hd key hk t false, flip_seen hp T fuel depth hf hd key hk t true⟩

/-- A message of 20 octets, sealed and opened. -/
example (T : Target) (iv : Block) (m : List U8) (hm : m.length = 20) := C99_opens hp T 65 8 le_rfl le_rfl (List.replicate 16 7) [1, 2, 3]
  (.inl List.length_replicate) iv m (by have := T.two_pow_ge; unfold Sealable; omega)

example (T : Target) := C99_iv hp T 65 8 le_rfl le_rfl (List.replicate 16 7) (.inl List.length_replicate) fun c => tag p T 65 8 [1, 2, 3] (List.Vector.replicate 16 0) c

/-- Against the tag of both, the attacker `flip` has hardly a chance, like all others. -/
example (T : Target) (k : Nat) (hk : k = 16 ∨ k = 24 ∨ k = 32) :
    |chance p T 65 8 k (fun x : List.Vector U8 32 => x.toList) false flip - chance p T 65 8 k (fun x : List.Vector U8 32 => x.toList) true flip| ≤
      (avg fun x : List.Vector U8 32 => ((flip.deaf (tag p T 65 8 x.toList)).side false).reduce.advantage k) +
      (avg fun x : List.Vector U8 32 => ((flip.deaf (tag p T 65 8 x.toList)).side true).reduce.advantage k) +
      forging p T 65 8 k 1 1 (fun x : List.Vector U8 32 => x.toList) false flip +
      forging p T 65 8 k 1 1 (fun x : List.Vector U8 32 => x.toList) true flip + (1 / 2 ^ 127 + 1 / 2 ^ 255) := by
  have hT := T.two_pow_ge
  refine (C99_sealed hp T 65 8 le_rfl le_rfl k hk _ (fun x => by simp only [List.Vector.toList_length]; omega) flip 2 1 1
    (flip_within T)).trans (le_of_eq ?_)
  push_cast
  ring

end Verif.Props.Sealed
