import Verif.Props.FromText
import Verif.Props.CbcSplit

/-!
Property C97: what an object keeps. However long a stream is, the objects that work on it stay small, and a `Cipher` keeps nothing of what it
has encrypted but the last block of ciphertext.
-/

namespace Verif.Props.Kept
open Verif Verif.Source Verif.Text Verif.Props.Source Verif.Props.FromText

/-- Methods called one after the other on an object: the object that they leave. -/
def afterIn (p : Program) (T : Target) (fuel depth : Nat) : Val → List (Fn × List Val) → Verif.Source.R Val
  | obj, [] => .ok obj
  | obj, c :: cs => invokeIn p T fuel depth obj c >>= fun (obj', _) => afterIn p T fuel depth obj' cs

/-- A constructor, and then methods on the new object: the object that they leave. -/
def objectIn (p : Program) (T : Target) (fuel depth : Nat) (new : Fn × List Val) (calls : List (Fn × List Val)) : Verif.Source.R Val :=
  call T p fuel depth new.1 new.2 >>= fun (obj, _) => afterIn p T fuel depth obj calls

mutual
/-- The number of octets in a value: the sizes of the numbers in it. -/
def held (T : Target) : Val → Nat
  | .unit => 0
  | .bool _ => 1
  | .u8 _ => 1
  | .u32 _ => 4
  | .u64 _ => 8
  | .usize _ => T.bits / 8
  | .i32 _ => 4
  | .str s => s.utf8ByteSize
  | .seq xs => heldAll T xs
  | .tup xs => heldAll T xs
  | .struct _ fields => heldFields T fields
  | .enum _ args => heldAll T args
/-- The same for a list of values. -/
def heldAll (T : Target) : List Val → Nat
  | [] => 0
  | x :: xs => held T x + heldAll T xs
/-- The same for the fields of a struct. -/
def heldFields (T : Target) : List (Id × Val) → Nat
  | [] => 0
  | (_, x) :: xs => held T x + heldFields T xs
end

theorem held_bytes (T : Target) (l : List U8) : heldAll T (l.map Val.u8) = l.length := by
  induction l with
  | nil => simp [heldAll]
  | cons x xs ih => rw [List.map_cons, heldAll, ih, held, List.length_cons, Nat.add_comm]

theorem held_words (T : Target) (l : List U32) : heldAll T (l.map Val.u32) = 4 * l.length := by
  induction l with
  | nil => simp [heldAll]
  | cons x xs ih => rw [List.map_cons, heldAll, ih, held, List.length_cons]; omega

theorem after_model {σ ι : Type} (T : Target) (fuel depth : Nat) (enc : σ → Val) (toCall : ι → Fn × List Val) (Q : σ → ι → σ → Prop)
    (h : ∀ s x r, invoke T fuel depth (enc s) (toCall x) = .ok r → ∃ s', r.1 = enc s' ∧ Q s x s') (s : σ) (xs : List ι) (obj : Val)
    (ho : afterIn crate T fuel depth (enc s) (xs.map toCall) = .ok obj) : ∃ s', obj = enc s' := by
  induction xs generalizing s with
  | nil => cases ho; exact ⟨s, rfl⟩
  | cons x xs ih =>
    rw [List.map_cons, afterIn] at ho
    change invoke T fuel depth (enc s) (toCall x) >>= _ = _ at ho
    cases e : invoke T fuel depth (enc s) (toCall x) with
    | error p => rw [e] at ho; cases ho
    | ok r =>
      obtain ⟨s', h1, -⟩ := h s x r e
      rw [e] at ho
      obtain ⟨o, v⟩ := r
      cases h1
      exact ih s' ho

section hashes
open Verif.Sha256 Verif.Hmac

theorem sha_invoke (T : Target) (fuel d : Nat) (s : SHA256) (x : Verif.Props.Sha256.Op) (r : Val × Val)
    (h : invoke T fuel (d + 8) (encSha s) (shaCall x) = .ok r) : ∃ s', r.1 = encSha s' := by
  cases x with
  | update data =>
    rw [shaCall, invoke, src_update] at h
    cases e : s.update T data with
    | error p => rw [e] at h; cases h
    | ok s' => rw [e] at h; cases h; exact ⟨s', rfl⟩
  | digest =>
    rw [shaCall, invoke, src_digest] at h
    cases e : s.digest T with
    | error p => rw [e] at h; cases h
    | ok s' => rw [e] at h; cases h; exact ⟨s'.1, rfl⟩

theorem hmac_invoke (T : Target) (fuel d : Nat) (s : HMac) (x : Verif.Props.Hmac.Op) (r : Val × Val)
    (h : invoke T fuel (d + 8) (encHMac s) (hmacCall x) = .ok r) : ∃ s', r.1 = encHMac s' := by
  cases x with
  | update data =>
    rw [hmacCall, invoke, src_HMac_update] at h
    cases e : s.update T data with
    | error p => rw [e] at h; cases h
    | ok s' => rw [e] at h; cases h; exact ⟨s', rfl⟩
  | digest =>
    rw [hmacCall, invoke, src_HMac_digest] at h
    cases e : s.digest T with
    | error p => rw [e] at h; cases h
    | ok s' => rw [e] at h; cases h; exact ⟨s'.1, rfl⟩

theorem held_sha (T : Target) (s : SHA256) : held T (encSha s) = 96 + T.bits / 8 := by
  simp only [encSha, held, heldFields, held_words, held_bytes, Vector.length_toList]
  omega

theorem held_hmac (T : Target) (s : HMac) : held T (encHMac s) = 2 * (96 + T.bits / 8) := by
  simp only [encHMac, held, heldFields, held_sha]
  omega

end hashes

variable {p : Program} (hp : IsProgram Files.lib sources p)

section
include hp

/-- **C97.** A `SHA256` of the program in the text holds 96 octets and the length, whatever was fed to it. -/
theorem C97_sha256 (T : Target) (fuel depth : Nat) (hd : 8 ≤ depth) (ops : List Verif.Props.Sha256.Op) (obj : Val)
    (h : objectIn p T fuel depth (.sha256_SHA256_new, []) (ops.map shaCall) = .ok obj) : held T obj = 96 + T.bits / 8 := by
  obtain ⟨d, rfl⟩ := Nat.exists_eq_add_of_le' hd
  rw [C86_text.2 p hp, objectIn, src_new] at h
  obtain ⟨s', rfl⟩ := after_model T fuel (d + 8) encSha shaCall (fun _ _ _ => True)
    (fun s x r hr => (sha_invoke T fuel d s x r hr).imp fun _ e => ⟨e, trivial⟩) _ ops obj h
  exact held_sha T s'

/-- **C97.** An `HMac` of the program in the text holds two hashes, whatever was fed to it and however long the key is. -/
theorem C97_hmac (T : Target) (fuel depth : Nat) (hd : 8 ≤ depth) (key : List U8) (ops : List Verif.Props.Hmac.Op) (obj : Val)
    (h : objectIn p T fuel depth (.hmac_HMac_new, [bytes key]) (ops.map hmacCall) = .ok obj) : held T obj = 2 * (96 + T.bits / 8) := by
  obtain ⟨d, rfl⟩ := Nat.exists_eq_add_of_le' hd
  rw [C86_text.2 p hp, objectIn, src_HMac_new] at h
  cases e : Verif.Hmac.HMac.new T key with
  | error x => rw [e] at h; cases h
  | ok s =>
    rw [e] at h
    obtain ⟨s', rfl⟩ := after_model T fuel (d + 8) encHMac hmacCall (fun _ _ _ => True)
      (fun s x r hr => (hmac_invoke T fuel d s x r hr).imp fun _ e => ⟨e, trivial⟩) _ ops obj h
    exact held_hmac T s'

end

section cbc
open Verif.Aes Verif.Pkcs7 Verif.AesCbc Spec.Cbc
open Verif.Props.Aes (Holds Matches)

theorem wordByte_inj (a b : U32) (h : wordByte a = wordByte b) : a = b := by
  have h0 := congrArg BitVec.toNat (congrFun h 0)
  have h1 := congrArg BitVec.toNat (congrFun h 1)
  have h2 := congrArg BitVec.toNat (congrFun h 2)
  have h3 := congrArg BitVec.toNat (congrFun h 3)
  apply BitVec.eq_of_toNat_eq
  simp [wordByte, Nat.shiftRight_eq_div_pow] at h0 h1 h2 h3
  have := a.isLt
  have := b.isLt
  omega

/-- The object that holds a key is determined by it. -/
theorem holds_unique {a b : AES} {key : List U8} (ha : Holds a key) (hb : Holds b key) : a = b := by
  obtain ⟨-, ra, wa, ka, la, sa⟩ := ha
  obtain ⟨-, rb, wb, kb, lb, sb⟩ := hb
  have hw : wa = wb := by
    apply List.ext_getElem
    · rw [la, lb, ra, rb]
    · intro i h1 h2
      exact wordByte_inj _ _ ((sa i h1).trans (sb i h2).symm)
  obtain ⟨a1, a2⟩ := a
  obtain ⟨b1, b2⟩ := b
  cases hw
  cases ka.trans kb.symm
  cases ra.trans rb.symm
  rfl

theorem held_aes (T : Target) {a : AES} {k : Option (List U8)} (h : Matches a k) : held T (encAES a) ≤ 240 + T.bits / 8 := by
  obtain ⟨rc, rk⟩ := a
  cases k with
  | none =>
    cases (show rk = none from h)
    simp only [encAES, encOptWords, held, heldFields, heldAll]
    omega
  | some key =>
    obtain ⟨hk, hr, ws, hw, hl, -⟩ := h
    cases (show rk = some ws from hw)
    simp only [encAES, encOptWords, held, heldFields, heldAll, held_words]
    rw [hl]
    simp only at hr ⊢
    omega

theorem after_cipher (T : Target) (fuel d : Nat) (calls : List Call) (hx : ∀ x ∈ calls, Reasonable T x) (c : Cipher) (e : Enc)
    (h : CMatches c e) (hr : c.aes.round_count ≤ 14) :
    ∃ c', afterIn crate T (fuel + 65) (d + 8) (encCipher c) (calls.map cipherCall) = .ok (encCipher c') ∧ CMatches c' (e.run calls).1 := by
  induction calls generalizing c e with
  | nil => exact ⟨c, rfl, h⟩
  | cons x xs ih =>
    obtain ⟨c', h1, h2, h3⟩ := cipher_invoke T fuel d c e h hr x (hx x (by simp))
    obtain ⟨c2, h4, h5⟩ := ih (fun y hy => hx y (by simp [hy])) c' _ h2 h3
    refine ⟨c2, ?_, h5⟩
    rw [List.map_cons, afterIn]
    change invoke T (fuel + 65) (d + 8) (encCipher c) (cipherCall x) >>= _ = _
    rw [h1]
    exact h4

theorem after_decipher (T : Target) (fuel d : Nat) (calls : List Call) (hx : ∀ x ∈ calls, Reasonable T x) (c : Decipher) (e : Dec)
    (h : DMatches c e) (hr : c.aes.round_count ≤ 14) :
    ∃ c', afterIn crate T (fuel + 65) (d + 8) (encDecipher c) (calls.map decipherCall) = .ok (encDecipher c') ∧ DMatches c' (e.run calls).1 := by
  induction calls generalizing c e with
  | nil => exact ⟨c, rfl, h⟩
  | cons x xs ih =>
    obtain ⟨c', h1, h2, h3⟩ := decipher_invoke T fuel d c e h hr x (hx x (by simp))
    obtain ⟨c2, h4, h5⟩ := ih (fun y hy => hx y (by simp [hy])) c' _ h2 h3
    refine ⟨c2, ?_, h5⟩
    rw [List.map_cons, afterIn]
    change invoke T (fuel + 65) (d + 8) (encDecipher c) (decipherCall x) >>= _ = _
    rw [h1]
    exact h4

theorem object_cipher (T : Target) (fuel depth : Nat) (hf : 65 ≤ fuel) (hd : 8 ≤ depth) (iv : Vector U8 16) (calls : List Call)
    (hx : ∀ x ∈ calls, Reasonable T x) :
    ∃ c, objectIn crate T fuel depth (.aes_cbc_Cipher_new, [bytes iv.toList]) (calls.map cipherCall) = .ok (encCipher c) ∧
      CMatches c (Enc.run ⟨none, iv.toList, []⟩ calls).1 := by
  obtain ⟨d, rfl⟩ := Nat.exists_eq_add_of_le' hd
  obtain ⟨f, rfl⟩ := Nat.exists_eq_add_of_le' hf
  rw [objectIn, src_Cipher_new]
  exact after_cipher T f d calls hx (Cipher.new iv) _ ⟨rfl, rfl, rfl, by simp⟩ (by show 0 ≤ 14; decide)

theorem object_decipher (T : Target) (fuel depth : Nat) (hf : 65 ≤ fuel) (hd : 8 ≤ depth) (iv : Vector U8 16) (calls : List Call)
    (hx : ∀ x ∈ calls, Reasonable T x) :
    ∃ c, objectIn crate T fuel depth (.aes_cbc_Decipher_new, [bytes iv.toList]) (calls.map decipherCall) = .ok (encDecipher c) ∧
      DMatches c (Dec.run ⟨none, iv.toList, [], []⟩ calls).1 := by
  obtain ⟨d, rfl⟩ := Nat.exists_eq_add_of_le' hd
  obtain ⟨f, rfl⟩ := Nat.exists_eq_add_of_le' hf
  rw [objectIn, src_Decipher_new]
  exact after_decipher T f d calls hx (Decipher.new iv) _ ⟨rfl, rfl, rfl, by simp, rfl, .inl rfl⟩ (by show 0 ≤ 14; decide)

theorem cipher_unique {c c' : Cipher} {key iv q : List U8} (h : CMatches c ⟨some key, iv, q⟩) (h' : CMatches c' ⟨some key, iv, q⟩) : c = c' := by
  obtain ⟨a, v, pd⟩ := c
  obtain ⟨a', v', pd'⟩ := c'
  obtain ⟨h1, h2, h3, -⟩ := h
  obtain ⟨g1, g2, g3, -⟩ := h'
  cases holds_unique h1 g1
  cases Vector.toList_inj.mp (h2.trans g2.symm)
  cases h3.trans g3.symm
  rfl

theorem decipher_unique {c c' : Decipher} {key iv q r : List U8} (h : DMatches c ⟨some key, iv, q, r⟩) (h' : DMatches c' ⟨some key, iv, q, r⟩) :
    c = c' := by
  obtain ⟨a, v, pd, u⟩ := c
  obtain ⟨a', v', pd', u'⟩ := c'
  obtain ⟨h1, h2, h3, -, h4, -⟩ := h
  obtain ⟨g1, g2, g3, -, g4, -⟩ := h'
  cases holds_unique h1 g1
  cases Vector.toList_inj.mp (h2.trans g2.symm)
  cases h3.trans g3.symm
  cases h4.trans g4.symm
  rfl

theorem enc_writes (key : List U8) (chunks : List (List U8)) (iv q s : List U8) (hq : q = tail s) :
    (Enc.run ⟨some key, lastBlock iv (encrypt key iv s), q⟩ (chunks.map .write)).1 =
      ⟨some key, lastBlock iv (encrypt key iv (s ++ chunks.flatten)), tail (s ++ chunks.flatten)⟩ := by
  induction chunks generalizing q s with
  | nil => simp [Enc.run, hq]
  | cons c cs ih =>
    rw [List.map_cons, Enc.run, Prod.map_fst, id, Verif.Props.CbcSplit.enc_write_some _ key rfl]
    subst hq
    simp only
    rw [← Verif.Props.CbcSplit.lastBlock_append, ih _ (s ++ c) (Verif.Props.CbcHistory.tail_tail s c), List.flatten_cons, List.append_assoc]

theorem enc_message (key : List U8) (chunks : List (List U8)) (iv : List U8) (hk : validKey key) :
    (Enc.run ⟨none, iv, []⟩ (messageCalls key chunks)).1 =
      ⟨some key, lastBlock iv (encrypt key iv (pkcs7 16 chunks.flatten)), []⟩ := by
  have h1 : Enc.run ⟨none, iv, []⟩ (messageCalls key chunks) =
      (Enc.run ⟨some key, iv, []⟩ (chunks.map .write ++ [.flush])).map id (.ok [] :: ·) := by
    rw [messageCalls, Enc.run, Enc.step, if_pos hk]
  have h2 : lastBlock iv (encrypt key iv []) = iv := by
    rw [Verif.Props.CbcSplit.encrypt_short _ _ _ (by simp)]
    rfl
  have h3 := enc_writes key chunks iv [] [] rfl
  rw [h2, List.nil_append] at h3
  rw [h1, Verif.Props.CbcSplit.enc_run_append, Prod.map_fst, id]
  simp only [h3, Enc.run, Enc.step, Prod.map_fst, id]
  have hl : (pkcs7 16 (tail chunks.flatten)).length = 16 := by
    have := tail_length chunks.flatten
    rw [pkcs7_length]
    omega
  congr 1
  rw [lastBlock, lastBlock, blocks_encrypt, blocks_encrypt, pkcs7_blocks, encBlocks_append, getLastD_append, ← Verif.Props.CbcSplit.tail_eq,
    encrypt_one _ _ _ hl]
  rfl

/-- The last block. -/
abbrev lastCut (l : List U8) : List U8 := l.drop (l.length - 16)

theorem lastCut_length (l : List U8) (h : l.length % 16 = 0) : lastCut l = [] ∨ (lastCut l).length = 16 := by
  by_cases h0 : l = []
  · left; rw [h0]; rfl
  · right
    have := List.length_pos_iff.2 h0
    rw [List.length_drop]
    omega

theorem dec_writes (key : List U8) (chunks : List (List U8)) (iv : List U8) (hiv : iv.length = 16) (s : List U8) :
    (Dec.run ⟨some key, lastBlock iv s, tail s, lastCut (decrypt key iv s)⟩ (chunks.map .write)).1 =
      ⟨some key, lastBlock iv (s ++ chunks.flatten), tail (s ++ chunks.flatten), lastCut (decrypt key iv (s ++ chunks.flatten))⟩ := by
  induction chunks generalizing s with
  | nil => simp [Dec.run]
  | cons c cs ih =>
    have hl : (lastBlock iv s).length = 16 := by
      rw [lastBlock, List.getLastD_eq_getLast?]
      cases h : (blocks s).getLast? with
      | none => exact hiv
      | some x => exact mem_blocks _ x (List.mem_of_getLast? h)
    have h1 := decrypt_length key iv s hiv
    have h2 := decrypt_length key (lastBlock iv s) (tail s ++ c) hl
    have hc := (Verif.Props.CbcSplit.cut_cut (decrypt key iv s) (decrypt key (lastBlock iv s) (tail s ++ c)) (by omega) (by omega)).1
    rw [List.map_cons, Dec.run, Prod.map_fst, id, Verif.Props.CbcSplit.dec_write_some _ key rfl (lastCut_length _ (by omega))]
    dsimp only
    rw [hc, Verif.Props.CbcHistory.tail_tail, ← Verif.Props.CbcSplit.lastBlock_tail, ← Verif.Props.CbcSplit.decrypt_tail, ih, List.flatten_cons,
      List.append_assoc]

theorem dec_message (key : List U8) (chunks : List (List U8)) (iv : List U8) (hiv : iv.length = 16) (hk : validKey key) (m : List U8)
    (hm : chunks.flatten = encrypt key iv (pkcs7 16 m)) :
    (Dec.run ⟨none, iv, [], []⟩ (messageCalls key chunks)).1 = ⟨some key, lastBlock iv chunks.flatten, [], []⟩ := by
  have h1 : Dec.run ⟨none, iv, [], []⟩ (messageCalls key chunks) =
      (Dec.run ⟨some key, iv, [], []⟩ (chunks.map .write ++ [.flush])).map id (.ok [] :: ·) := by
    rw [messageCalls, Dec.run, Dec.step, if_pos hk]
  have h3 := dec_writes key chunks iv hiv []
  have h2 : decrypt key iv [] = [] := Verif.Props.CbcSplit.decrypt_short _ _ _ (by simp)
  rw [h2, List.nil_append] at h3
  have h3 : (Dec.run ⟨some key, iv, [], []⟩ (chunks.map .write)).1 = _ := h3
  have hl := pkcs7_length m
  have hd : decrypt key iv chunks.flatten = pkcs7 16 m := by rw [hm, decrypt_encrypt _ _ _ hiv (by omega)]
  have ht : tail chunks.flatten = [] := by
    have := encrypt_length key iv (pkcs7 16 m)
    rw [hm, tail]
    apply List.drop_of_length_le
    omega
  obtain ⟨v, hv1, hv2, hv3, -⟩ := Verif.Props.Cbc.pkcs7_trailer m
  have hlast : (lastCut (pkcs7 16 m)).getLast? = some v := by
    rw [lastCut, List.getLast?_drop, if_neg (by omega), hv2]
  have hall : v.toNat ≤ 16 ∧ ∀ b ∈ (lastCut (pkcs7 16 m)).drop (16 - v.toNat), b = v := by
    obtain ⟨h5, h6⟩ := hv3
    refine ⟨h5, ?_⟩
    intro b hb
    apply h6
    rw [lastCut, List.drop_drop, show (pkcs7 16 m).length - 16 + (16 - v.toNat) = (pkcs7 16 m).length - v.toNat by omega] at hb
    exact hb
  rw [h1, Verif.Props.CbcSplit.dec_run_append, Prod.map_fst, id, h3]
  simp only [Dec.run, Dec.step, Prod.map_fst, id, hd, hlast]
  rw [if_pos hall, ht]

theorem reasonable_pair (T : Target) (key q : List U8) (h : q.length < 16) : ∀ x ∈ [Call.init key, .write q], Reasonable T x := by
  have : 2 ^ 31 - 1 ≤ T.isizeMax := by rcases T with ⟨_ | _, _⟩ <;> (simp only [Target.isizeMax, Target.bits]; decide)
  intro x hx b hb
  simp only [List.mem_cons, List.not_mem_nil, or_false] at hx
  rcases hx with rfl | rfl
  · cases hb
  · cases hb; omega

theorem reasonable_init (T : Target) (key : List U8) : ∀ x ∈ [Call.init key], Reasonable T x := by
  intro x hx b hb
  simp only [List.mem_singleton] at hx
  rw [hx] at hb
  cases hb

/-- The key after a call. -/
def stepKey (k : Option (List U8)) : Verif.Props.Aes.Call → Option (List U8)
  | .init key => if validKey key then some key else k
  | _ => k

theorem aes_invoke (T : Target) (fuel d : Nat) (c : Verif.Props.Aes.Call) (a : AES) (cur : Option (List U8)) (h : AMatches a cur) :
    ∃ a' v, invoke T (fuel + 65) (d + 8) (encAES a) (aesCall c) = .ok (encAES a', v) ∧ AMatches a' (stepKey cur c) := by
  obtain ⟨hm, hr⟩ := h
  cases c with
  | init key =>
    rw [aesCall, invoke, src_AES_init]
    by_cases hk : validKey key
    · obtain ⟨a', h1, h2⟩ := Verif.Props.Aes.init_valid T a key hk
      rw [h1, stepKey, if_pos hk]
      exact ⟨a', _, rfl, h2, holds_rounds h2⟩
    · rw [Verif.Props.Aes.init_invalid T a key hk, stepKey, if_neg hk]
      exact ⟨a, _, rfl, hm, hr⟩
  | encrypt b =>
    rw [aesCall, invoke, src_AES_encrypt T fuel (d + 3) a b hr]
    cases cur with
    | none =>
      have e : a.encrypt b = .ok (.error .NotInitialized) := by
        unfold AES.encrypt
        rw [show a.round_keys = none from hm]; rfl
      rw [e]
      exact ⟨a, _, rfl, hm, hr⟩
    | some key =>
      obtain ⟨o, h1, h2⟩ := Verif.Props.Aes.Holds.encrypt hm b
      rw [h1]
      exact ⟨a, _, rfl, hm, hr⟩
  | decrypt b =>
    rw [aesCall, invoke, src_AES_decrypt T fuel (d + 3) a b hr]
    cases cur with
    | none =>
      have e : a.decrypt b = .ok (.error .NotInitialized) := by
        unfold AES.decrypt
        rw [show a.round_keys = none from hm]; rfl
      rw [e]
      exact ⟨a, _, rfl, hm, hr⟩
    | some key =>
      obtain ⟨o, h1, h2⟩ := Verif.Props.Aes.Holds.decrypt hm b
      rw [h1]
      exact ⟨a, _, rfl, hm, hr⟩

theorem after_aes (T : Target) (fuel d : Nat) (cs : List Verif.Props.Aes.Call) (a : AES) (cur : Option (List U8)) (h : AMatches a cur) :
    ∃ a', afterIn crate T (fuel + 65) (d + 8) (encAES a) (cs.map aesCall) = .ok (encAES a') ∧ AMatches a' (cs.foldl stepKey cur) := by
  induction cs generalizing a cur with
  | nil => exact ⟨a, rfl, h⟩
  | cons x xs ih =>
    obtain ⟨a', v, h1, h2⟩ := aes_invoke T fuel d x a cur h
    obtain ⟨a2, h3, h4⟩ := ih a' _ h2
    refine ⟨a2, ?_, h4⟩
    rw [List.map_cons, afterIn]
    change invoke T (fuel + 65) (d + 8) (encAES a) (aesCall x) >>= _ = _
    rw [h1]
    exact h3

theorem object_aes (T : Target) (fuel depth : Nat) (hf : 65 ≤ fuel) (hd : 8 ≤ depth) (cs : List Verif.Props.Aes.Call) :
    ∃ a, objectIn crate T fuel depth (.aes_AES_new, []) (cs.map aesCall) = .ok (encAES a) ∧ Matches a (cs.foldl stepKey none) := by
  obtain ⟨d, rfl⟩ := Nat.exists_eq_add_of_le' hd
  obtain ⟨f, rfl⟩ := Nat.exists_eq_add_of_le' hf
  rw [objectIn, src_AES_new]
  obtain ⟨a, h1, h2, -⟩ := after_aes T f d cs AES.new none ⟨rfl, by show 0 ≤ 14; decide⟩
  exact ⟨a, h1, h2⟩

theorem stepKey_same (k : Option (List U8)) (ds : List Verif.Props.Aes.Call) (h : ∀ k, .init k ∈ ds → ¬ validKey k) : ds.foldl stepKey k = k := by
  induction ds with
  | nil => rfl
  | cons d ds ih =>
    have : stepKey k d = k := by
      cases d with
      | init key => rw [stepKey, if_neg (h key (by simp))]
      | _ => rfl
    rw [List.foldl_cons, this]
    exact ih fun k hk => h k (by simp [hk])

include hp

/-- **C97.** After any history a `Cipher` of the program in the text holds at most the 240 octets of the key schedule, the chaining block, 15
octets of an incomplete block, and two numbers. -/
theorem C97_cipher (T : Target) (fuel depth : Nat) (hf : 65 ≤ fuel) (hd : 8 ≤ depth) (iv : Vector U8 16) (calls : List Call)
    (hx : ∀ x ∈ calls, Reasonable T x) :
    ∃ obj, objectIn p T fuel depth (.aes_cbc_Cipher_new, [bytes iv.toList]) (calls.map cipherCall) = .ok obj ∧
      held T obj ≤ 240 + 16 + 15 + 2 * (T.bits / 8) := by
  rw [C86_text.2 p hp]
  obtain ⟨c, h, hk, -, hpad, hl⟩ := object_cipher T fuel depth hf hd iv calls hx
  refine ⟨_, h, ?_⟩
  have := held_aes T hk
  simp only [encCipher, encPad, held, heldFields, held_bytes, Vector.length_toList, hpad]
  omega

/-- **C97.** After any history a `Decipher` of the program in the text holds at most the 240 octets of the key schedule, the chaining block, 15
octets of an incomplete block, a decrypted block, and three numbers. -/
theorem C97_decipher (T : Target) (fuel depth : Nat) (hf : 65 ≤ fuel) (hd : 8 ≤ depth) (iv : Vector U8 16) (calls : List Call)
    (hx : ∀ x ∈ calls, Reasonable T x) :
    ∃ obj, objectIn p T fuel depth (.aes_cbc_Decipher_new, [bytes iv.toList]) (calls.map decipherCall) = .ok obj ∧
      held T obj ≤ 240 + 16 + 15 + 16 + 3 * (T.bits / 8) := by
  rw [C86_text.2 p hp]
  obtain ⟨c, h, hk, -, hpad, hl, hu, hh⟩ := object_decipher T fuel depth hf hd iv calls hx
  refine ⟨_, h, ?_⟩
  have := held_aes T hk
  simp only [encDecipher, encPad, encUnpad, held, heldFields, held_bytes, Vector.length_toList, hpad, hu]
  have : (Dec.run ⟨none, iv.toList, [], []⟩ calls).1.held.length ≤ 16 := by
    rcases hh with h | h
    · rw [h]; simp
    · omega
  omega

/-- **C97.** After any history with a key a `Cipher` of the program in the text is the very same object as a new one whose initialization vector
is the chaining block, with that key, and fed with the incomplete block: it remembers no earlier key, and of what it has encrypted no more than
the last block of ciphertext. -/
theorem C97_cipher_keeps (T : Target) (fuel depth : Nat) (hf : 65 ≤ fuel) (hd : 8 ≤ depth) (iv : Vector U8 16) (calls : List Call)
    (hx : ∀ x ∈ calls, Reasonable T x) (e : Enc) (he : e = (Enc.run ⟨none, iv.toList, []⟩ calls).1) (key : List U8) (h : e.key = some key) :
    ∃ iv' : Vector U8 16, iv'.toList = e.iv ∧
      objectIn p T fuel depth (.aes_cbc_Cipher_new, [bytes iv.toList]) (calls.map cipherCall) =
        objectIn p T fuel depth (.aes_cbc_Cipher_new, [bytes iv'.toList]) ([.init key, .write e.pending].map cipherCall) := by
  rw [C86_text.2 p hp]
  obtain ⟨c, hc, hm⟩ := object_cipher T fuel depth hf hd iv calls hx
  rw [← he] at hm
  clear he
  obtain ⟨k, v, pending⟩ := e
  cases (show k = some key from h)
  have hl : pending.length < 16 := hm.2.2.2
  have hv : c.iv.toList = v := hm.2.1
  refine ⟨c.iv, hv, ?_⟩
  obtain ⟨c', hc', hm2⟩ := object_cipher T fuel depth hf hd c.iv [.init key, .write pending] (reasonable_pair T key pending hl)
  have hk : validKey key := hm.1.1
  have : (Enc.run ⟨none, c.iv.toList, []⟩ [.init key, .write pending]).1 = ⟨some key, v, pending⟩ := by
    simp [Enc.run, Enc.step, hk, hl, hv]
  rw [this] at hm2
  rw [hc, hc', cipher_unique hm hm2]

/-- **C97.** A key, a message in any pieces, and `flush`: what is left of them in the `Cipher` is the key and the last block of the ciphertext. -/
theorem C97_cipher_flushed (T : Target) (fuel depth : Nat) (hf : 65 ≤ fuel) (hd : 8 ≤ depth) (iv : Vector U8 16) (key : List U8)
    (hk : key.length = 16 ∨ key.length = 24 ∨ key.length = 32) (chunks : List (List U8)) (hc : ∀ b ∈ chunks, b.length + 16 ≤ T.isizeMax) :
    ∃ iv' : Vector U8 16, iv'.toList = lastBlock iv.toList (encrypt key iv.toList (pkcs7 16 chunks.flatten)) ∧
      objectIn p T fuel depth (.aes_cbc_Cipher_new, [bytes iv.toList]) ((messageCalls key chunks).map cipherCall) =
        objectIn p T fuel depth (.aes_cbc_Cipher_new, [bytes iv'.toList]) ([.init key].map cipherCall) := by
  have hk : validKey key := hk
  have hr := enc_message key chunks iv.toList hk
  obtain ⟨iv', h1, h2⟩ := C97_cipher_keeps hp T fuel depth hf hd iv _ (message_reasonable T key chunks hc) _ hr.symm key rfl
  refine ⟨iv', h1, h2.trans ?_⟩
  obtain ⟨v, h3, h4⟩ := C97_cipher_keeps hp T fuel depth hf hd iv' [.init key] (reasonable_init T key) ⟨some key, iv'.toList, []⟩
    (by simp [Enc.run, Enc.step, hk]) key rfl
  cases Vector.toList_inj.mp h3
  exact h4.symm

/-- **C97.** The same for a `Decipher` that holds no decrypted block back, as after a successful `flush`: it remembers nothing of what it has
decrypted but the last block of the ciphertext. -/
theorem C97_decipher_keeps (T : Target) (fuel depth : Nat) (hf : 65 ≤ fuel) (hd : 8 ≤ depth) (iv : Vector U8 16) (calls : List Call)
    (hx : ∀ x ∈ calls, Reasonable T x) (e : Dec) (he : e = (Dec.run ⟨none, iv.toList, [], []⟩ calls).1) (key : List U8) (h : e.key = some key)
    (hh : e.held = []) :
    ∃ iv' : Vector U8 16, iv'.toList = e.iv ∧
      objectIn p T fuel depth (.aes_cbc_Decipher_new, [bytes iv.toList]) (calls.map decipherCall) =
        objectIn p T fuel depth (.aes_cbc_Decipher_new, [bytes iv'.toList]) ([.init key, .write e.pending].map decipherCall) := by
  rw [C86_text.2 p hp]
  obtain ⟨c, hc, hm⟩ := object_decipher T fuel depth hf hd iv calls hx
  rw [← he] at hm
  clear he
  obtain ⟨k, v, pending, r⟩ := e
  cases (show k = some key from h)
  cases (show r = [] from hh)
  have hl : pending.length < 16 := hm.2.2.2.1
  have hv : c.iv.toList = v := hm.2.1
  refine ⟨c.iv, hv, ?_⟩
  obtain ⟨c', hc', hm2⟩ := object_decipher T fuel depth hf hd c.iv [.init key, .write pending] (reasonable_pair T key pending hl)
  have hk : validKey key := hm.1.1
  have : (Dec.run ⟨none, c.iv.toList, [], []⟩ [.init key, .write pending]).1 = ⟨some key, v, pending, []⟩ := by
    simp [Dec.run, Dec.step, hk, hl, hv]
  rw [this] at hm2
  rw [hc, hc', decipher_unique hm hm2]

/-- **C97.** A key, the ciphertext of a message in any pieces, and `flush`: what is left of them in the `Decipher` is the key and the last block of
the ciphertext, and nothing of the message. -/
theorem C97_decipher_flushed (T : Target) (fuel depth : Nat) (hf : 65 ≤ fuel) (hd : 8 ≤ depth) (iv : Vector U8 16) (key : List U8)
    (hk : key.length = 16 ∨ key.length = 24 ∨ key.length = 32) (chunks : List (List U8)) (hc : ∀ b ∈ chunks, b.length + 16 ≤ T.isizeMax)
    (m : List U8) (hm : chunks.flatten = encrypt key iv.toList (pkcs7 16 m)) :
    ∃ iv' : Vector U8 16, iv'.toList = lastBlock iv.toList chunks.flatten ∧
      objectIn p T fuel depth (.aes_cbc_Decipher_new, [bytes iv.toList]) ((messageCalls key chunks).map decipherCall) =
        objectIn p T fuel depth (.aes_cbc_Decipher_new, [bytes iv'.toList]) ([.init key].map decipherCall) := by
  have hk : validKey key := hk
  have hr := dec_message key chunks iv.toList (by simp) hk m hm
  obtain ⟨iv', h1, h2⟩ := C97_decipher_keeps hp T fuel depth hf hd iv _ (message_reasonable T key chunks hc) _ hr.symm key rfl rfl
  refine ⟨iv', h1, h2.trans ?_⟩
  obtain ⟨v, h3, h4⟩ := C97_decipher_keeps hp T fuel depth hf hd iv' [.init key] (reasonable_init T key) ⟨some key, iv'.toList, [], []⟩
    (by simp [Dec.run, Dec.step, hk]) key rfl rfl
  cases Vector.toList_inj.mp h3
  exact h4.symm

/-- **C97.** Any two histories that leave a `Decipher` with the same key, chaining block, incomplete block and held back block leave the same
object. -/
theorem C97_decipher_same (T : Target) (fuel depth : Nat) (hf : 65 ≤ fuel) (hd : 8 ≤ depth) (iv iv' : Vector U8 16) (calls calls' : List Call)
    (hx : ∀ x ∈ calls, Reasonable T x) (hx' : ∀ x ∈ calls', Reasonable T x)
    (h : (Dec.run ⟨none, iv.toList, [], []⟩ calls).1 = (Dec.run ⟨none, iv'.toList, [], []⟩ calls').1)
    (hk : (Dec.run ⟨none, iv.toList, [], []⟩ calls).1.key ≠ none) :
    objectIn p T fuel depth (.aes_cbc_Decipher_new, [bytes iv.toList]) (calls.map decipherCall) =
      objectIn p T fuel depth (.aes_cbc_Decipher_new, [bytes iv'.toList]) (calls'.map decipherCall) := by
  rw [C86_text.2 p hp]
  obtain ⟨c, hc, hm⟩ := object_decipher T fuel depth hf hd iv calls hx
  obtain ⟨c', hc', hm'⟩ := object_decipher T fuel depth hf hd iv' calls' hx'
  rw [← h] at hm'
  generalize (Dec.run ⟨none, iv.toList, [], []⟩ calls).1 = e at *
  obtain ⟨_ | key, v, q, r⟩ := e
  · exact absurd rfl hk
  · rw [hc, hc', decipher_unique hm hm']

/-- **C97.** Whatever an `AES` of the program in the text did before a key was installed, and whatever blocks it worked on since, it is the very
same object as a new one with that key: nothing of an earlier key is left. -/
theorem C97_aes_keeps (T : Target) (fuel depth : Nat) (hf : 65 ≤ fuel) (hd : 8 ≤ depth) (cs ds : List Verif.Props.Aes.Call) (key : List U8)
    (hk : validKey key) (hds : ∀ k, .init k ∈ ds → ¬ validKey k) :
    objectIn p T fuel depth (.aes_AES_new, []) ((cs ++ .init key :: ds).map aesCall) =
      objectIn p T fuel depth (.aes_AES_new, []) ([.init key].map aesCall) := by
  rw [C86_text.2 p hp]
  obtain ⟨a, ha, hm⟩ := object_aes T fuel depth hf hd (cs ++ .init key :: ds)
  obtain ⟨b, hb, hm'⟩ := object_aes T fuel depth hf hd [.init key]
  rw [List.foldl_append, List.foldl_cons, stepKey_same _ _ hds, stepKey, if_pos hk] at hm
  rw [List.foldl_cons, List.foldl_nil, stepKey, if_pos hk] at hm'
  rw [ha, hb, holds_unique hm hm']

/-- **C97.** An `AES` of the program in the text holds at most the 240 octets of a key schedule, and a number. -/
theorem C97_aes (T : Target) (fuel depth : Nat) (hf : 65 ≤ fuel) (hd : 8 ≤ depth) (cs : List Verif.Props.Aes.Call) :
    ∃ obj, objectIn p T fuel depth (.aes_AES_new, []) (cs.map aesCall) = .ok obj ∧ held T obj ≤ 240 + T.bits / 8 := by
  rw [C86_text.2 p hp]
  obtain ⟨a, ha, hm⟩ := object_aes T fuel depth hf hd cs
  exact ⟨_, ha, held_aes T hm⟩

end cbc

/-! ### Concrete cases -/

/-- A session that answers leaves an object. -/
theorem session_object (T : Target) (fuel depth : Nat) (new : Fn × List Val) (calls : List (Fn × List Val)) (vs : List Val)
    (h : sessionIn p T fuel depth new calls = .ok vs) : ∃ obj, objectIn p T fuel depth new calls = .ok obj := by
  have key : ∀ (calls : List (Fn × List Val)) (o : Val) (vs : List Val), historyIn p T fuel depth o calls = .ok vs →
      ∃ obj, afterIn p T fuel depth o calls = .ok obj := by
    intro calls
    induction calls with
    | nil => exact fun o _ _ => ⟨o, rfl⟩
    | cons c cs ih =>
      intro o vs h
      rw [historyIn] at h
      rw [afterIn]
      cases e : invokeIn p T fuel depth o c with
      | error x => rw [e] at h; cases h
      | ok r =>
        rw [e] at h
        obtain ⟨o', v⟩ := r
        change historyIn p T fuel depth o' cs >>= _ = _ at h
        cases e2 : historyIn p T fuel depth o' cs with
        | error x => rw [e2] at h; cases h
        | ok ws => exact ih o' ws e2
  rw [sessionIn] at h
  rw [objectIn]
  cases e : call T p fuel depth new.1 new.2 with
  | error x => rw [e] at h; cases h
  | ok r => rw [e] at h; exact key _ _ _ h

include hp

/-- Hashes of two pieces exist, and hold what C97 says. -/
example (T : Target) : ∃ obj, objectIn p T 0 8 (.sha256_SHA256_new, [])
    ([.update (List.replicate 100 1), .update [2, 3], .digest].map shaCall) = .ok obj ∧ held T obj = 96 + T.bits / 8 := by
  obtain ⟨obj, h⟩ := session_object T 0 8 _ _ _ (C86_sha256 hp T 0 8 (by decide) [List.replicate 100 1, [2, 3]] (by
    rcases T with ⟨_ | _, _⟩ <;> (simp only [Target.bits]; decide)))
  exact ⟨obj, h, C97_sha256 hp T 0 8 (by decide) [.update (List.replicate 100 1), .update [2, 3], .digest] obj h⟩

example (T : Target) : ∃ obj, objectIn p T 0 8 (.hmac_HMac_new, [bytes (List.replicate 100 1)])
    ([.update [2, 3], .digest].map hmacCall) = .ok obj ∧ held T obj = 2 * (96 + T.bits / 8) := by
  obtain ⟨obj, h⟩ := session_object T 0 8 _ _ _ (C86_hmac hp T 0 8 (by decide) (List.replicate 100 1) [[2, 3]]
    (by rcases T with ⟨_ | _, _⟩ <;> (simp only [Target.bits]; decide)) (by rcases T with ⟨_ | _, _⟩ <;> (simp only [Target.bits]; decide)))
  exact ⟨obj, h, C97_hmac hp T 0 8 (by decide) _ [.update [2, 3], .digest] obj h⟩

open Spec.Cbc in
/-- A `Cipher` that had another key and a message before. -/
example (T : Target) (iv : Vector U8 16) : ∃ iv' : Vector U8 16,
    objectIn p T 65 8 (.aes_cbc_Cipher_new, [bytes iv.toList])
        ((messageCalls (List.replicate 16 1) [[4, 5], [6]] ++ [Call.init (List.replicate 32 2), .write [7]]).map cipherCall) =
      objectIn p T 65 8 (.aes_cbc_Cipher_new, [bytes iv'.toList]) ([Call.init (List.replicate 32 2), .write [7]].map cipherCall) := by
  obtain ⟨iv', -, h⟩ := C97_cipher_keeps hp T 65 8 (by decide) (by decide) iv
    (messageCalls (List.replicate 16 1) [[4, 5], [6]] ++ [Call.init (List.replicate 32 2), .write [7]])
    (by
      have : 2 ^ 31 - 1 ≤ T.isizeMax := by rcases T with ⟨_ | _, _⟩ <;> (simp only [Target.isizeMax, Target.bits]; decide)
      intro x hx b hb
      subst hb
      simp [messageCalls] at hx
      rcases hx with rfl | rfl | rfl <;> simp <;> omega)
    _ rfl (List.replicate 32 2) (by
      rw [Verif.Props.CbcSplit.enc_run_append]
      rfl)
  refine ⟨iv', h.trans ?_⟩
  rw [Verif.Props.CbcSplit.enc_run_append, enc_message _ _ _ (by decide)]
  rfl

open Spec.Cbc in
/-- The ciphertext of a message in three pieces. -/
example (T : Target) (iv : Vector U8 16) (m : List U8) (hm : m.length = 20) : ∃ (chunks : List (List U8)) (iv' : Vector U8 16),
    chunks.length = 3 ∧ chunks.flatten = encrypt (List.replicate 16 1) iv.toList (pkcs7 16 m) ∧
    objectIn p T 65 8 (.aes_cbc_Decipher_new, [bytes iv.toList]) ((messageCalls (List.replicate 16 1) chunks).map decipherCall) =
      objectIn p T 65 8 (.aes_cbc_Decipher_new, [bytes iv'.toList]) ([Call.init (List.replicate 16 1)].map decipherCall) := by
  have hl : (encrypt (List.replicate 16 1) iv.toList (pkcs7 16 m)).length = 32 := by
    rw [Verif.AesCbc.encrypt_length, Verif.AesCbc.pkcs7_length, hm]
  generalize hc : encrypt (List.replicate 16 1) iv.toList (pkcs7 16 m) = c at hl
  have : 2 ^ 31 - 1 ≤ T.isizeMax := by rcases T with ⟨_ | _, _⟩ <;> (simp only [Target.isizeMax, Target.bits]; decide)
  have e : [c.take 5, (c.drop 5).take 20, (c.drop 5).drop 20].flatten = c := by
    simp only [List.flatten_cons, List.flatten_nil, List.append_nil, List.take_append_drop]
  obtain ⟨iv', -, h⟩ := C97_decipher_flushed hp T 65 8 (by decide) (by decide) iv (List.replicate 16 1) (by decide)
    [c.take 5, (c.drop 5).take 20, (c.drop 5).drop 20] (by
      intro b hb
      have : b.length ≤ 32 := by
        simp only [List.mem_cons, List.not_mem_nil, or_false] at hb
        rcases hb with rfl | rfl | rfl <;> simp <;> omega
      omega) m (e.trans hc.symm)
  exact ⟨_, iv', rfl, e, h⟩

omit hp in
open Spec.Cbc in
theorem reasonable_short (T : Target) (calls : List Call) (h : ∀ b, Call.write b ∈ calls → b.length ≤ 1000) : ∀ x ∈ calls, Reasonable T x := by
  have : 2 ^ 31 - 1 ≤ T.isizeMax := by rcases T with ⟨_ | _, _⟩ <;> (simp only [Target.isizeMax, Target.bits]; decide)
  intro x hx b hb
  subst hb
  have := h b hx
  omega

open Spec.Cbc in
/-- What is held after two keys and three writes, whatever they gave. -/
example (T : Target) (iv : Vector U8 16) := C97_cipher hp T 65 8 (by decide) (by decide) iv
  [Call.write [1], .init (List.replicate 16 1), .write [4, 5], .flush, .init (List.replicate 32 2), .write [7]] (reasonable_short T _ (by simp))

open Spec.Cbc in
example (T : Target) (iv : Vector U8 16) := C97_decipher hp T 65 8 (by decide) (by decide) iv
  [Call.write [1], .init (List.replicate 16 1), .write [4, 5], .flush, .init (List.replicate 32 2), .write [7]] (reasonable_short T _ (by simp))

open Spec.Cbc in
example (T : Target) (iv : Vector U8 16) := C97_decipher_keeps hp T 65 8 (by decide) (by decide) iv
  [Call.init (List.replicate 16 1), .write [4, 5], .flush, .init (List.replicate 32 2), .write [7]] (reasonable_short T _ (by simp)) _ rfl
  (List.replicate 32 2) rfl rfl

open Spec.Cbc in
/-- The same five octets in two writes and in three. -/
example (T : Target) (iv : Vector U8 16) := C97_decipher_same hp T 65 8 (by decide) (by decide) iv iv
  [Call.init (List.replicate 16 1), .write [1, 2], .write [3, 4, 5]] [Call.init (List.replicate 16 1), .write [1], .write [2, 3], .write [4, 5]]
  (reasonable_short T _ (by simp)) (reasonable_short T _ (by simp)) rfl
  (fun h => Option.some_ne_none (List.replicate 16 1) h)

open Spec.Cbc in
example (T : Target) (iv : Vector U8 16) := C97_cipher_flushed hp T 65 8 (by decide) (by decide) iv (List.replicate 16 1) (by decide) [[4, 5], [6]]
  (by
    have : 2 ^ 31 - 1 ≤ T.isizeMax := by rcases T with ⟨_ | _, _⟩ <;> (simp only [Target.isizeMax, Target.bits]; decide)
    simp
    omega)

example (T : Target) (b : Vector U8 16) := C97_aes hp T 65 8 (by decide) (by decide) [.init (List.replicate 32 1), .encrypt b, .init [3], .decrypt b]

/-- Two keys one after the other, and blocks between and after them. -/
example (T : Target) (b : Vector U8 16) :
    objectIn p T 65 8 (.aes_AES_new, [])
        ([Verif.Props.Aes.Call.init (List.replicate 32 1), .encrypt b, .init (List.replicate 16 2), .decrypt b, .init [3]].map aesCall) =
      objectIn p T 65 8 (.aes_AES_new, []) ([Verif.Props.Aes.Call.init (List.replicate 16 2)].map aesCall) :=
  C97_aes_keeps hp T 65 8 (by decide) (by decide) [.init (List.replicate 32 1), .encrypt b] [.decrypt b, .init [3]] (List.replicate 16 2)
    (by decide) (by
      intro k hk
      simp at hk
      subst hk
      decide)

end Verif.Props.Kept
