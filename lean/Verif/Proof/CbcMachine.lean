import Verif.Proof.CbcStream

/-! `aes_cbc.rs`: the model follows the abstract machines of `Spec.CbcMachine`. -/

namespace Verif.AesCbc
open Verif Verif.Aes Verif.Pkcs7 Spec.Cbc
open Verif.Props.Aes (Holds init_valid init_invalid Matches)
open Verif.Props.Pkcs7 (unpad_rest)

/-- The instance is in the abstract state. -/
def CMatches (c : Cipher) (e : Enc) : Prop :=
  Matches c.aes e.key ∧ c.iv.toList = e.iv ∧ c.pad = ⟨16, e.pending⟩ ∧ e.pending.length < 16

/-- The instance is in the abstract state. -/
def DMatches (d : Decipher) (e : Dec) : Prop :=
  Matches d.aes e.key ∧ d.iv.toList = e.iv ∧ d.buffer = ⟨16, e.pending⟩ ∧ e.pending.length < 16 ∧
    d.unpad = ⟨16, e.held⟩ ∧ (e.held = [] ∨ e.held.length = 16)

theorem tail_length (s : List U8) : (tail s).length < 16 := by
  rw [tail, List.length_drop]; omega

theorem tail_short (s : List U8) (h : s.length < 16) : tail s = s := by
  rw [tail, Nat.div_eq_of_lt h]; rfl

theorem blocks_encrypt (key iv s : List U8) :
    blocks (encrypt key iv s) = encBlocks (Spec.Aes.encrypt key) iv (blocks s) :=
  blocks_flatten _ (mem_encBlocks key iv _)

theorem encrypt_block_none (c : Cipher) (h : c.aes.round_keys = none) (b : List U8) (hb : b.length = 16) :
    c.encrypt_block b = .ok (c, .error .NotInitialized) := by
  obtain ⟨v, h1, h2⟩ := arrayFromSlice_ok b hb
  unfold Cipher.encrypt_block
  rw [h1]
  simp only [ok_bind]
  have : c.aes.encrypt (xorBlock v c.iv) = .ok (.error .NotInitialized) := by
    unfold AES.encrypt
    rw [h]
    rfl
  rw [this]
  rfl

theorem cipher_write_none (T : Target) (c : Cipher) (s : List U8) (h : c.aes.round_keys = none) (hp : c.pad = ⟨16, s⟩)
    (b : List U8) (hl : ¬ (s ++ b).length < 16) :
    c.write T b = .ok (⟨c.aes, ⟨16, tail (s ++ b)⟩, c.iv⟩, .error .NotInitialized) := by
  obtain ⟨o, h1, h2, h3⟩ := pad_write T 16 (by decide) s b
  unfold Cipher.write
  rw [hp, h1]
  simp only [ok_bind]
  cases o with
  | none => exact absurd (h3.1 rfl) hl
  | some head =>
    have e : head = (s ++ b).take (padCut 16 (s ++ b).length) := h2
    simp only []
    rw [e, chunks_ok]
    simp only [ok_bind]
    cases hbs : blocks (s ++ b) with
    | nil =>
      have := blocks_length (s ++ b)
      rw [hbs, List.length_nil] at this
      omega
    | cons b0 bs =>
      unfold Cipher.writeLoop
      rw [encrypt_block_none _ (by exact h) b0 (mem_blocks (s ++ b) b0 (by rw [hbs]; simp))]
      rfl

theorem cipher_flush_none (T : Target) (c : Cipher) (s : List U8) (h : c.aes.round_keys = none) (hp : c.pad = ⟨16, s⟩)
    (hs : s.length < 16) : c.flush T = .ok (⟨c.aes, ⟨16, []⟩, c.iv⟩, .error .NotInitialized) := by
  unfold Cipher.flush
  rw [hp, pad_flush _ _ _ (by omega)]
  simp only [ok_bind]
  rw [encrypt_block_none _ (by exact h)]
  rw [List.length_append, List.length_replicate]; omega

theorem encrypt_one (key iv p : List U8) (h : p.length = 16) :
    encrypt key iv p = Spec.Aes.encrypt key (Spec.xorBytes p iv) := by
  have := blocks_cons p [] h
  rw [List.append_nil, blocks_short [] (by simp)] at this
  rw [encrypt, this]
  simp [encBlocks]

theorem cstep_spec (T : Target) (c : Cipher) (e : Enc) (h : CMatches c e) (x : Call) :
    ∃ c' r, cstep T c x = .ok (c', r) ∧ CMatches c' (e.step x).1 ∧ r.mapError errA = (e.step x).2 := by
  obtain ⟨hk, hiv, hp, hl⟩ := h
  cases x with
  | init key =>
    by_cases hv : validKey key
    · obtain ⟨a, h1, h2⟩ := init_valid T c.aes key hv
      refine ⟨{ c with aes := a }, .ok [], ?_, ?_, ?_⟩
      · rw [cstep, Cipher.init, h1]; rfl
      · rw [Enc.step, if_pos hv]; exact ⟨h2, hiv, hp, hl⟩
      · rw [Enc.step, if_pos hv]; rfl
    · refine ⟨c, .error .InvalidKeySize, ?_, ?_, ?_⟩
      · rw [cstep, Cipher.init, init_invalid T c.aes key hv]; rfl
      · rw [Enc.step, if_neg hv]; exact ⟨hk, hiv, hp, hl⟩
      · rw [Enc.step, if_neg hv]; rfl
  | write b =>
    by_cases hs : (e.pending ++ b).length < 16
    · have hw : c.write T b = .ok ({ c with pad := ⟨16, e.pending ++ b⟩ }, .ok []) := by
        obtain ⟨o, h1, h2, h3⟩ := pad_write T 16 (by decide) e.pending b
        unfold Cipher.write
        rw [hp, h1, h3.2 hs]
        have : padCut 16 (e.pending ++ b).length = 0 := by rw [padCut]; omega
        rw [this]
        rfl
      refine ⟨_, _, hw, ?_, ?_⟩
      · rw [Enc.step, if_pos hs]; exact ⟨hk, hiv, rfl, hs⟩
      · rw [Enc.step, if_pos hs]; rfl
    · rw [Enc.step, if_neg hs]
      cases hkey : e.key with
      | none =>
        rw [hkey] at hk
        exact ⟨_, _, cipher_write_none T c _ hk hp b hs, ⟨by simpa [hkey] using hk, hiv, rfl, tail_length _⟩, rfl⟩
      | some key =>
        rw [hkey] at hk
        obtain ⟨iv, h1, h2⟩ := cipher_write_ok T c key _ hk hp b
        refine ⟨_, _, h1, ⟨by simpa [hkey] using hk, ?_, rfl, tail_length _⟩, ?_⟩
        · simp only [lastBlock]
          rw [blocks_encrypt, h2, hiv]
        · rw [hiv]; rfl
  | flush =>
    rw [Enc.step]
    cases hkey : e.key with
    | none =>
      rw [hkey] at hk
      exact ⟨_, _, cipher_flush_none T c _ hk hp hl, ⟨by simpa [hkey] using hk, hiv, rfl, by simp⟩, rfl⟩
    | some key =>
      rw [hkey] at hk
      obtain ⟨iv, h1, h2⟩ := cipher_flush_ok T c key _ hk hp hl
      have e1 : encrypt key e.iv (pkcs7 16 e.pending) = iv.toList := by
        rw [h2, hiv, encrypt_one]
        rw [pkcs7_length]; omega
      refine ⟨_, _, h1, ⟨by simpa [hkey] using hk, ?_, rfl, by simp⟩, ?_⟩
      · exact e1.symm
      · exact congrArg Except.ok e1.symm

theorem crun_spec (T : Target) (xs : List Call) (c : Cipher) (e : Enc) (h : CMatches c e) :
    ∃ c' rs, crun T c xs = .ok (c', rs) ∧ CMatches c' (e.run xs).1 ∧ rs.map (·.mapError errA) = (e.run xs).2 := by
  induction xs generalizing c e with
  | nil => exact ⟨c, [], rfl, h, rfl⟩
  | cons x xs ih =>
    obtain ⟨c1, r, h1, h2, h3⟩ := cstep_spec T c e h x
    obtain ⟨c2, rs, h4, h5, h6⟩ := ih c1 _ h2
    refine ⟨c2, r :: rs, crun_cons T h1 h4, h5, ?_⟩
    rw [List.map_cons, h3, h6]
    rfl

/-! ### The decryptor -/

theorem decipher_write_none (T : Target) (d : Decipher) (s : List U8) (h : d.aes.round_keys = none)
    (hb : d.buffer = ⟨16, s⟩) (b : List U8) (hl : ¬ (s ++ b).length < 16) :
    d.write T b = .ok (⟨d.aes, d.unpad, d.iv, ⟨16, tail (s ++ b)⟩⟩, .error (.AES .NotInitialized)) := by
  obtain ⟨o, h1, h2, h3⟩ := pad_write T 16 (by decide) s b
  unfold Decipher.write
  rw [hb, h1]
  simp only [ok_bind]
  cases o with
  | none => exact absurd (h3.1 rfl) hl
  | some head =>
    have e : head = (s ++ b).take (padCut 16 (s ++ b).length) := h2
    simp only []
    rw [e, chunks_ok]
    simp only [ok_bind]
    cases hbs : blocks (s ++ b) with
    | nil =>
      have := blocks_length (s ++ b)
      rw [hbs, List.length_nil] at this
      omega
    | cons b0 bs =>
      unfold Decipher.writeLoop
      obtain ⟨v, h4, h5⟩ := arrayFromSlice_ok b0 (mem_blocks (s ++ b) b0 (by rw [hbs]; simp))
      rw [h4]
      simp only [ok_bind]
      have : d.aes.decrypt v = .ok (.error .NotInitialized) := by
        unfold AES.decrypt
        rw [h]
        rfl
      rw [this]
      rfl

theorem flatten_len16 (L : List (List U8)) (h : ∀ b ∈ L, b.length = 16) : L.flatten.length = 16 * L.length := by
  have := Scrypt.flatten_const_length L 16 h
  omega

theorem decrypt_length (key iv s : List U8) (hiv : iv.length = 16) :
    (decrypt key iv s).length = 16 * (s.length / 16) := by
  rw [decrypt, flatten_len16 _ (mem_decBlocks key iv hiv _ (mem_blocks s)), decBlocks_length, blocks_length]

theorem encrypt_length (key iv s : List U8) : (encrypt key iv s).length = 16 * (s.length / 16) := by
  rw [encrypt, flatten_len16 _ (mem_encBlocks key iv _), encBlocks_length, blocks_length]

theorem unpadCut_whole (n : Nat) (h : n % 16 = 0) : unpadCut 16 n = n - 16 := by
  rw [unpadCut]; omega

theorem dstep_spec (T : Target) (d : Decipher) (e : Dec) (h : DMatches d e) (x : Call) :
    ∃ d' r, dstep T d x = .ok (d', r) ∧ DMatches d' (e.step x).1 ∧ r.mapError errD = (e.step x).2 := by
  obtain ⟨hk, hiv, hb, hl, hu, hh⟩ := h
  cases x with
  | init key =>
    by_cases hv : validKey key
    · obtain ⟨a, h1, h2⟩ := init_valid T d.aes key hv
      refine ⟨{ d with aes := a }, .ok [], ?_, ?_, ?_⟩
      · rw [dstep, Decipher.init, h1]; rfl
      · rw [Dec.step, if_pos hv]; exact ⟨h2, hiv, hb, hl, hu, hh⟩
      · rw [Dec.step, if_pos hv]; rfl
    · refine ⟨d, .error (.AES .InvalidKeySize), ?_, ?_, ?_⟩
      · rw [dstep, Decipher.init, init_invalid T d.aes key hv]; rfl
      · rw [Dec.step, if_neg hv]; exact ⟨hk, hiv, hb, hl, hu, hh⟩
      · rw [Dec.step, if_neg hv]; rfl
  | write b =>
    by_cases hs : (e.pending ++ b).length < 16
    · have hw : d.write T b = .ok ({ d with buffer := ⟨16, e.pending ++ b⟩ }, .ok []) := by
        obtain ⟨o, h1, h2, h3⟩ := pad_write T 16 (by decide) e.pending b
        unfold Decipher.write
        rw [hb, h1, h3.2 hs]
        have : padCut 16 (e.pending ++ b).length = 0 := by rw [padCut]; omega
        rw [this]
        rfl
      refine ⟨_, _, hw, ?_, ?_⟩
      · rw [Dec.step, if_pos hs]; exact ⟨hk, hiv, rfl, hs, hu, hh⟩
      · rw [Dec.step, if_pos hs]; rfl
    · rw [Dec.step, if_neg hs]
      cases hkey : e.key with
      | none =>
        rw [hkey] at hk
        exact ⟨_, _, decipher_write_none T d _ hk hb b hs,
          ⟨by simpa [hkey] using hk, hiv, rfl, tail_length _, hu, hh⟩, rfl⟩
      | some key =>
        rw [hkey] at hk
        have hh16 : e.held.length ≤ 16 := by
          rcases hh with h | h
          · rw [h]; simp
          · omega
        obtain ⟨iv, h1, h2⟩ := decipher_write_ok T d key _ _ hk hb hu hh16 b
        have hP : (e.held ++ decrypt key e.iv (e.pending ++ b)).length % 16 = 0 := by
          rw [List.length_append, decrypt_length _ _ _ (by rw [← hiv]; simp)]
          rcases hh with h | h
          · rw [h]; simp
          · omega
        have hP' : (e.held ++ decrypt key e.iv (e.pending ++ b)).length ≥ 16 := by
          rw [List.length_append, decrypt_length _ _ _ (by rw [← hiv]; simp)]
          omega
        rw [hiv] at h1 h2
        change Decipher.write T d b = .ok (⟨d.aes, ⟨16, (e.held ++ decrypt key e.iv (e.pending ++ b)).drop
          (unpadCut 16 (e.held ++ decrypt key e.iv (e.pending ++ b)).length)⟩, iv, ⟨16, tail (e.pending ++ b)⟩⟩,
          .ok ((e.held ++ decrypt key e.iv (e.pending ++ b)).take
          (unpadCut 16 (e.held ++ decrypt key e.iv (e.pending ++ b)).length))) at h1
        rw [unpadCut_whole _ hP] at h1
        refine ⟨_, _, h1, ⟨by simpa [hkey] using hk, h2, rfl, tail_length _, rfl, Or.inr ?_⟩, rfl⟩
        rw [List.length_drop]; omega
  | flush =>
    rw [Dec.step]
    cases hlast : e.held.getLast? with
    | none =>
      have h0 : e.held = [] := List.getLast?_eq_none_iff.1 hlast
      refine ⟨d, .error (.PKCS7 .UnfinishedBlock), ?_, ⟨hk, hiv, hb, hl, hu, hh⟩, rfl⟩
      rw [dstep, Decipher.flush, hu, unpad_flush_unfinished _ _ _ (by rw [h0]; simp)]
      rw [← hu]; rfl
    | some v =>
      have hlen : e.held.length = 16 := by
        rcases hh with h | h
        · rw [h] at hlast; cases hlast
        · exact h
      obtain ⟨h1, h2⟩ := unpad_flush_full T 16 (by decide) (by decide) e.held v hlen hlast
      by_cases hv : v.toNat ≤ 16 ∧ ∀ b ∈ e.held.drop (16 - v.toNat), b = v
      · refine ⟨{ d with unpad := ⟨16, []⟩ }, .ok (e.held.take (16 - v.toNat)), ?_, ?_, ?_⟩
        · rw [dstep, Decipher.flush, hu, h1 hv]; rfl
        · simp only []
          rw [if_pos hv]
          exact ⟨hk, hiv, hb, hl, rfl, Or.inl rfl⟩
        · simp only []
          rw [if_pos hv]; rfl
      · refine ⟨d, .error (.PKCS7 .InvalidPadding), ?_, ?_, ?_⟩
        · rw [dstep, Decipher.flush, hu, h2 hv]
          rw [← hu]; rfl
        · simp only []
          rw [if_neg hv]
          exact ⟨hk, hiv, hb, hl, hu, hh⟩
        · simp only []
          rw [if_neg hv]; rfl

theorem drun_spec (T : Target) (xs : List Call) (d : Decipher) (e : Dec) (h : DMatches d e) :
    ∃ d' rs, drun T d xs = .ok (d', rs) ∧ DMatches d' (e.run xs).1 ∧ rs.map (·.mapError errD) = (e.run xs).2 := by
  induction xs generalizing d e with
  | nil => exact ⟨d, [], rfl, h, rfl⟩
  | cons x xs ih =>
    obtain ⟨c1, r, h1, h2, h3⟩ := dstep_spec T d e h x
    obtain ⟨c2, rs, h4, h5, h6⟩ := ih c1 _ h2
    refine ⟨c2, r :: rs, drun_cons T h1 h4, h5, ?_⟩
    rw [List.map_cons, h3, h6]
    rfl

end Verif.AesCbc
