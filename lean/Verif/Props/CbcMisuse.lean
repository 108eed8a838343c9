import Verif.Props.CbcHistory

/-! Properties C51 (reused iv), C52 (equal ciphertext blocks), C53 (other iv when decrypting), C56 (missing `flush`),
C57 (padding oracle), and the `flush` part of C38: what CBC mode shows and changes when it is used in unusual ways. -/

namespace Verif.Props.CbcMisuse
open Verif Verif.Aes Verif.Pkcs7 Verif.AesCbc Spec.Cbc
open Verif.Props.Cbc (encMessages cipher_session decipher_session session pkcs7_trailer pkcs7_injective xor_injective)
open Verif.Props.CbcHistory (decrypt_first decrypt_split)

/-! ### C51 -/

theorem drop_whole (s : List U8) (h : s.length % 16 = 0) : s.drop (padCut 16 s.length) = [] := by
  apply List.drop_of_length_le; rw [padCut]; omega

theorem encrypt_append (key iv s t : List U8) (h : s.length % 16 = 0) :
    encrypt key iv (s ++ t) = encrypt key iv s ++ encrypt key (lastBlock iv (encrypt key iv s)) t := by
  rw [lastBlock, blocks_encrypt, encrypt, encrypt, encrypt, blocks_append, drop_whole s h, List.nil_append, encBlocks_append,
    List.flatten_append]

theorem encrypt_take (key iv s : List U8) (k : Nat) (h : 16 * k ≤ s.length) :
    (encrypt key iv s).take (16 * k) = encrypt key iv (s.take (16 * k)) := by
  have hl : (s.take (16 * k)).length = 16 * k := by rw [List.length_take]; omega
  conv => lhs; rw [← List.take_append_drop (16 * k) s]
  rw [encrypt_append _ _ _ _ (by omega)]
  apply List.take_left'
  rw [encrypt_length, hl]
  omega

/-- **C51.** Two messages encrypted with the same key and iv, in any pieces: the ciphertexts agree in the first `k` blocks exactly
when the padded messages do. -/
theorem C51_iv_reuse (T : Target) (iv : Vector U8 16) (key : List U8)
    (hk : key.length = 16 ∨ key.length = 24 ∨ key.length = 32) (chunks chunks' : List (List U8)) :
    ∃ (c c' : Cipher) (rs rs' : List (List U8)) (last last' : List U8),
      crun T (Cipher.new iv) (.init key :: (chunks.map .write ++ [.flush]))
        = .ok (c, .ok [] :: (rs.map .ok ++ [.ok last])) ∧
      crun T (Cipher.new iv) (.init key :: (chunks'.map .write ++ [.flush]))
        = .ok (c', .ok [] :: (rs'.map .ok ++ [.ok last'])) ∧
      ∀ k, 16 * k ≤ (rs.flatten ++ last).length → 16 * k ≤ (rs'.flatten ++ last').length →
        ((rs.flatten ++ last).take (16 * k) = (rs'.flatten ++ last').take (16 * k) ↔
          (pkcs7 16 chunks.flatten).take (16 * k) = (pkcs7 16 chunks'.flatten).take (16 * k)) := by
  obtain ⟨c, rs, last, h1, _, _, _, h2⟩ := cipher_session T iv key hk chunks
  obtain ⟨c', rs', last', h1', _, _, _, h2'⟩ := cipher_session T iv key hk chunks'
  refine ⟨c, c', rs, rs', last, last', h1, h1', fun k hl hl' => ?_⟩
  rw [h2, encrypt_length] at hl
  rw [h2', encrypt_length] at hl'
  rw [h2, h2', encrypt_take _ _ _ _ (by omega), encrypt_take _ _ _ _ (by omega)]
  constructor
  · intro h
    have := congrArg (decrypt key iv.toList) h
    rwa [decrypt_encrypt _ _ _ (by simp) (by rw [List.length_take]; omega),
      decrypt_encrypt _ _ _ (by simp) (by rw [List.length_take]; omega)] at this
  · intro h
    rw [h]

/-- Two messages that begin with the same block. -/
example (T : Target) (iv : Vector U8 16) := C51_iv_reuse T iv (List.replicate 16 1) (.inl rfl) [List.replicate 20 2] [List.replicate 18 2, [3, 4]]

/-! ### C52 -/

/-- Block `i` of a byte string. -/
def blockAt (s : List U8) (i : Nat) : List U8 := (s.drop (16 * i)).take 16

/-- The block that is mixed into block `i` before it is encrypted: the iv for the first one, else the ciphertext block before. -/
def prevBlock (iv ct : List U8) : Nat → List U8
  | 0 => iv
  | i + 1 => blockAt ct i

theorem blockAt_append (a s : List U8) (i : Nat) (h : a.length = 16) : blockAt (a ++ s) (i + 1) = blockAt s i := by
  rw [blockAt, blockAt, show 16 * (i + 1) = a.length + 16 * i by omega, ← List.drop_drop, List.drop_left]

theorem blockAt_encrypt_blocks (key : List U8) (ps : List (List U8)) (iv : List U8) (i : Nat) (hp : ∀ p ∈ ps, p.length = 16)
    (hi : i < ps.length) :
    blockAt (encBlocks (Spec.Aes.encrypt key) iv ps).flatten i =
      Spec.Aes.encrypt key (Spec.xorBytes (blockAt ps.flatten i)
        (prevBlock iv (encBlocks (Spec.Aes.encrypt key) iv ps).flatten i)) := by
  induction ps generalizing iv i with
  | nil => simp at hi
  | cons p ps ih =>
    have hp0 := hp p (by simp)
    have hc := aes_encrypt_length key (Spec.xorBytes p iv)
    simp only [encBlocks, List.flatten_cons]
    cases i with
    | zero =>
      rw [blockAt, blockAt, prevBlock, Nat.mul_zero, List.drop_zero, List.drop_zero, List.take_left' hc, List.take_left' hp0]
    | succ i =>
      rw [blockAt_append _ _ _ hc, blockAt_append _ _ _ hp0,
        ih _ _ (fun q hq => hp q (by simp [hq])) (by simpa using hi)]
      congr 2
      cases i with
      | zero => simp [prevBlock, blockAt, hc]
      | succ i => rw [prevBlock, prevBlock, blockAt_append _ _ _ hc]

theorem blockAt_encrypt (key iv s : List U8) (i : Nat) (hs : s.length % 16 = 0) (hi : 16 * i < s.length) :
    blockAt (encrypt key iv s) i =
      Spec.Aes.encrypt key (Spec.xorBytes (blockAt s i) (prevBlock iv (encrypt key iv s) i)) := by
  have := blockAt_encrypt_blocks key (blocks s) iv i (mem_blocks s) (by rw [blocks_length]; omega)
  rwa [flatten_blocks, take_whole s hs] at this

theorem blockAt_length (s : List U8) (i : Nat) (hs : s.length % 16 = 0) (hi : 16 * i < s.length) :
    (blockAt s i).length = 16 := by
  rw [blockAt, List.length_take, List.length_drop]; omega

theorem prevBlock_length (iv s : List U8) (i : Nat) (hiv : iv.length = 16) (hs : s.length % 16 = 0) (hi : 16 * i < s.length) :
    (prevBlock iv s i).length = 16 := by
  cases i with
  | zero => exact hiv
  | succ i => exact blockAt_length s i hs (by omega)

theorem xor_cross (a b c d : List U8) (ha : a.length = 16) (hb : b.length = 16) (hc : c.length = 16) (hd : d.length = 16) :
    Spec.xorBytes a b = Spec.xorBytes c d ↔ Spec.xorBytes a c = Spec.xorBytes b d := by
  have key : ∀ a b c d : List U8, a.length = 16 → b.length = 16 → c.length = 16 → d.length = 16 →
      Spec.xorBytes a b = Spec.xorBytes c d → Spec.xorBytes a c = Spec.xorBytes b d := by
    intro a b c d ha hb hc hd h
    apply List.ext_getElem
    · simp [Spec.xorBytes, ha, hb, hc, hd]
    · intro i h1 h2
      have hi : i < 16 := by simpa [Spec.xorBytes, ha, hc] using h1
      have e : (Spec.xorBytes a b)[i]'(by simp [Spec.xorBytes, ha, hb, hi]) =
          (Spec.xorBytes c d)[i]'(by simp [Spec.xorBytes, hc, hd, hi]) := by
        simp only [h]
      simp only [Spec.xorBytes, List.getElem_zipWith] at e ⊢
      have e2 : a[i] = c[i] ^^^ d[i] ^^^ b[i] := by
        rw [← e, BitVec.xor_assoc, BitVec.xor_self, BitVec.xor_zero]
      rw [e2, BitVec.xor_comm (c[i] ^^^ d[i] ^^^ b[i]), ← BitVec.xor_assoc, ← BitVec.xor_assoc, BitVec.xor_self,
        BitVec.zero_xor, BitVec.xor_comm]
  exact ⟨key a b c d ha hb hc hd, key a c b d ha hc hb hd⟩

/-- **C52.** Two messages encrypted with the same key, and any ivs: block `i` of the one ciphertext equals block `j` of the other
exactly when the xor of the two plaintext blocks is the xor of the two blocks mixed into them (which are public). So equal
ciphertext blocks reveal the xor of the plaintext blocks. Taking the same message twice covers blocks of one ciphertext. -/
theorem C52_equal_blocks (T : Target) (iv iv' : Vector U8 16) (key : List U8)
    (hk : key.length = 16 ∨ key.length = 24 ∨ key.length = 32) (chunks chunks' : List (List U8)) :
    ∃ (c c' : Cipher) (rs rs' : List (List U8)) (last last' : List U8),
      crun T (Cipher.new iv) (.init key :: (chunks.map .write ++ [.flush]))
        = .ok (c, .ok [] :: (rs.map .ok ++ [.ok last])) ∧
      crun T (Cipher.new iv') (.init key :: (chunks'.map .write ++ [.flush]))
        = .ok (c', .ok [] :: (rs'.map .ok ++ [.ok last'])) ∧
      ∀ i j, 16 * i < (rs.flatten ++ last).length → 16 * j < (rs'.flatten ++ last').length →
        (blockAt (rs.flatten ++ last) i = blockAt (rs'.flatten ++ last') j ↔
          Spec.xorBytes (blockAt (pkcs7 16 chunks.flatten) i) (blockAt (pkcs7 16 chunks'.flatten) j) =
            Spec.xorBytes (prevBlock iv.toList (rs.flatten ++ last) i) (prevBlock iv'.toList (rs'.flatten ++ last') j)) := by
  obtain ⟨c, rs, last, h1, _, _, _, h2⟩ := cipher_session T iv key hk chunks
  obtain ⟨c', rs', last', h1', _, _, _, h2'⟩ := cipher_session T iv' key hk chunks'
  refine ⟨c, c', rs, rs', last, last', h1, h1', fun i j hi hj => ?_⟩
  have hp := pkcs7_length chunks.flatten
  have hp' := pkcs7_length chunks'.flatten
  have hl := encrypt_length key iv.toList (pkcs7 16 chunks.flatten)
  have hl' := encrypt_length key iv'.toList (pkcs7 16 chunks'.flatten)
  rw [h2] at hi ⊢
  rw [h2'] at hj ⊢
  rw [blockAt_encrypt _ _ _ _ (by omega) (by omega), blockAt_encrypt _ _ _ _ (by omega) (by omega)]
  have l1 := blockAt_length (pkcs7 16 chunks.flatten) i (by omega) (by omega)
  have l2 := blockAt_length (pkcs7 16 chunks'.flatten) j (by omega) (by omega)
  have l3 := prevBlock_length iv.toList _ i (by simp) (by omega) hi
  have l4 := prevBlock_length iv'.toList _ j (by simp) (by omega) hj
  rw [← xor_cross _ _ _ _ l1 l3 l2 l4]
  constructor
  · intro h
    have := congrArg (Spec.Aes.decrypt key) h
    rwa [aes_dec_enc _ _ (xor_length _ _ l1 l3), aes_dec_enc _ _ (xor_length _ _ l2 l4)] at this
  · intro h
    rw [h]

/-- A message of two equal blocks, and one of them alone. -/
example (T : Target) (iv iv' : Vector U8 16) := C52_equal_blocks T iv iv' (List.replicate 16 1) (.inl rfl) [List.replicate 32 2] [List.replicate 16 2]

/-! ### C53 -/

/-- The answer of `flush`, from the last decrypted block. -/
def flushOf (h : List U8) : Except DecipherError (List U8) :=
  match h.getLast? with
  | none => .error (.PKCS7 .UnfinishedBlock)
  | some v =>
    if v.toNat ≤ 16 ∧ ∀ b ∈ h.drop (16 - v.toNat), b = v then .ok (h.take (16 - v.toNat))
    else .error (.PKCS7 .InvalidPadding)

theorem flushOf_spec (P : List U8) (out : List U8) (r : Except DecipherError (List U8)) (hP : P.length % 16 = 0)
    (ho : out = P.take (P.length - 16))
    (h : (P = [] ∧ r = .error (.PKCS7 .UnfinishedBlock)) ∨
        (∃ v, P.getLast? = some v ∧ Trailer P v ∧ ∃ last, r = .ok last ∧ out ++ last = P.take (P.length - v.toNat)) ∨
        (∃ v, P.getLast? = some v ∧ ¬ Trailer P v ∧ r = .error (.PKCS7 .InvalidPadding))) :
    r = flushOf (P.drop (P.length - 16)) := by
  rcases h with ⟨rfl, rfl⟩ | ⟨v, h1, h2, last, rfl, h3⟩ | ⟨v, h1, h2, rfl⟩
  · rfl
  all_goals
    have hne : P ≠ [] := by rintro rfl; cases h1
    have hpos := List.length_pos_iff.2 hne
    have hlast : (P.drop (P.length - 16)).getLast? = some v := by
      rw [List.getLast?_drop, if_neg (by omega), h1]
    have hsub : v.toNat ≤ 16 → (P.drop (P.length - 16)).drop (16 - v.toNat) = P.drop (P.length - v.toNat) := by
      intro hv
      rw [List.drop_drop]
      congr 1
      omega
    rw [flushOf, hlast]
    dsimp only
  · have hv := h2.1
    rw [if_pos ⟨hv, by rw [hsub hv]; exact h2.2⟩]
    congr 1
    have e : P.take (P.length - v.toNat) = P.take (P.length - 16) ++ (P.drop (P.length - 16)).take (16 - v.toNat) := by
      rw [show P.length - v.toNat = (P.length - 16) + (16 - v.toNat) by omega, List.take_add]
    rw [e, ho] at h3
    exact List.append_cancel_left h3
  · rw [if_neg]
    rintro ⟨a, b⟩
    rw [hsub a] at b
    exact h2 ⟨a, b⟩

/-- **C53.** The same ciphertext (in any pieces) decrypted with the same key and another iv: the bytes that come out of the
writes agree from byte 16 on, and in the first block they differ by the xor of the ivs; with at least two blocks `flush` gives
the same answer, so a wrong or manipulated iv is not noticed. -/
theorem C53_other_iv (T : Target) (iv iv' : Vector U8 16) (key : List U8)
    (hk : key.length = 16 ∨ key.length = 24 ∨ key.length = 32) (chunks chunks' : List (List U8))
    (hc : chunks.flatten = chunks'.flatten) :
    ∃ (d d' : Decipher) (rs rs' : List (List U8)) (r r' : Except DecipherError (List U8)),
      drun T (Decipher.new iv) (.init key :: (chunks.map .write ++ [.flush])) = .ok (d, .ok [] :: (rs.map .ok ++ [r])) ∧
      drun T (Decipher.new iv') (.init key :: (chunks'.map .write ++ [.flush])) = .ok (d', .ok [] :: (rs'.map .ok ++ [r'])) ∧
      rs'.flatten.length = rs.flatten.length ∧
      (∀ i (h1 : i < rs.flatten.length) (h2 : i < rs'.flatten.length),
        (16 ≤ i → rs.flatten[i] = rs'.flatten[i]) ∧
        (∀ hi : i < 16, rs.flatten[i] ^^^ rs'.flatten[i] = iv[i] ^^^ iv'[i])) ∧
      (32 ≤ chunks.flatten.length → r = r') := by
  obtain ⟨d, rs, r, e1, e2, e3, e4⟩ := decipher_session T iv key hk chunks
  obtain ⟨d', rs', r', e1', e2', e3', e4'⟩ := decipher_session T iv' key hk chunks'
  have f := e3 chunks.length _ rfl
  have f' := e3' chunks'.length _ rfl
  rw [List.take_length, ← e2, List.take_length] at f
  rw [List.take_length, ← e2', List.take_length, ← hc] at f'
  rw [← hc] at e4'
  obtain ⟨q, post, hq, hd⟩ := decrypt_first key chunks.flatten
  have hl := decrypt_length key iv.toList chunks.flatten (by simp)
  have hl' := decrypt_length key iv'.toList chunks.flatten (by simp)
  have hlen : rs'.flatten.length = rs.flatten.length := by
    rw [f, f', List.length_take, List.length_take, hl, hl']
  refine ⟨d, d', rs, rs', r, r', e1, e1', hlen, ?_, ?_⟩
  · intro i h1 h2
    have hi : i < (decrypt key iv.toList chunks.flatten).length := by
      rw [f, List.length_take] at h1; omega
    have hi' : i < (decrypt key iv'.toList chunks.flatten).length := by omega
    have g : rs.flatten[i] = (decrypt key iv.toList chunks.flatten)[i] := by
      simp only [f, List.getElem_take]
    have g' : rs'.flatten[i] = (decrypt key iv'.toList chunks.flatten)[i] := by
      simp only [f', List.getElem_take]
    rw [g, g']
    simp only [hd]
    rcases hq with hq | ⟨rfl, rfl⟩
    · have hx : ∀ w : Vector U8 16, (Spec.xorBytes q w.toList).length = 16 := fun w => xor_length _ _ hq (by simp)
      constructor
      · intro h16
        rw [List.getElem_append_right (by rw [hx]; exact h16), List.getElem_append_right (by rw [hx]; exact h16)]
        simp only [hx]
      · intro h16
        rw [List.getElem_append_left (by rw [hx]; exact h16), List.getElem_append_left (by rw [hx]; exact h16)]
        simp only [Spec.xorBytes, List.getElem_zipWith, Vector.getElem_toList]
        rw [BitVec.xor_comm q[i], BitVec.xor_assoc, ← BitVec.xor_assoc q[i], BitVec.xor_self, BitVec.zero_xor]
    · rw [hd] at hi
      simp [Spec.xorBytes] at hi
  · intro h32
    rw [flushOf_spec _ _ r (by omega) f (e4 _ rfl), flushOf_spec _ _ r' (by omega) f' (e4' _ rfl), hl, hl', hd, hd]
    rcases hq with hq | ⟨rfl, rfl⟩
    · have hx : ∀ w : Vector U8 16, (Spec.xorBytes q w.toList).length = 16 := fun w => xor_length _ _ hq (by simp)
      have hdrop : ∀ w : Vector U8 16, (Spec.xorBytes q w.toList ++ post).drop (16 * (chunks.flatten.length / 16) - 16) =
          post.drop (16 * (chunks.flatten.length / 16) - 32) := by
        intro w
        rw [List.drop_append, List.drop_of_length_le (by rw [hx]; omega), hx, List.nil_append]
        congr 1
      rw [hdrop, hdrop]
    · rw [hd] at hl
      simp only [Spec.xorBytes, List.zipWith_nil_left, List.append_nil, List.length_nil] at hl
      omega

/-- A ciphertext of two blocks. -/
example (T : Target) (iv iv' : Vector U8 16) := C53_other_iv T iv iv' (List.replicate 16 1) (.inl rfl) [List.replicate 20 2, List.replicate 12 2]
  [List.replicate 32 2] rfl

/-- A ciphertext of two blocks, cut in two different ways, meets the hypotheses of both parts. -/
example (a : U8) : [List.replicate 20 a, List.replicate 12 a].flatten = [List.replicate 32 a].flatten ∧
    32 ≤ [List.replicate 20 a, List.replicate 12 a].flatten.length := by simp

/-! ### C56 -/

/-- The ciphertexts of a sequence of messages, joined, are the CBC encryption of the padded messages, joined. -/
theorem chain_flatten (key : List U8) (ms : List (List U8)) (iv : List U8) :
    (chain key iv ms).flatten = encrypt key iv (ms.map (pkcs7 16)).flatten := by
  induction ms generalizing iv with
  | nil => rw [chain, List.map_nil, List.flatten_nil, encrypt, blocks_short [] (by simp)]; rfl
  | cons m ms ih =>
    rw [chain, List.flatten_cons, ih, List.map_cons, List.flatten_cons, encrypt_append _ _ _ _ (by rw [pkcs7_length]; omega)]

/-- **C56.** The ciphertexts of several messages sent through one `Cipher` (each ended by `flush`), given to a `Decipher` in any
pieces with a single `flush` at the end: everything is accepted, but every message except the last comes out with its padding
bytes still attached. -/
theorem C56_missing_flush (T : Target) (iv : Vector U8 16) (key : List U8)
    (hk : key.length = 16 ∨ key.length = 24 ∨ key.length = 32) (msgs : List (List U8)) (m : List U8)
    (chunks : List (List U8)) (hc : chunks.flatten = (chain key iv.toList (msgs ++ [m])).flatten) :
    ∃ (d : Decipher) (rs : List (List U8)) (last : List U8),
      drun T (Decipher.new iv) (.init key :: (chunks.map .write ++ [.flush]))
        = .ok (d, .ok [] :: (rs.map .ok ++ [.ok last])) ∧
      rs.flatten ++ last = (msgs.map (pkcs7 16)).flatten ++ m := by
  obtain ⟨d, rs, r, h1, h2, h3, h4⟩ := decipher_session T iv key hk chunks
  have hmod : ∀ ms : List (List U8), (ms.map (pkcs7 16)).flatten.length % 16 = 0 := by
    intro ms
    induction ms with
    | nil => rfl
    | cons a ms ih => rw [List.map_cons, List.flatten_cons, List.length_append, pkcs7_length]; omega
  have hd : decrypt key iv.toList chunks.flatten = (msgs.map (pkcs7 16)).flatten ++ pkcs7 16 m := by
    rw [hc, chain_flatten, decrypt_encrypt _ _ _ (by simp) (hmod _)]
    simp
  rw [hd] at h4
  obtain ⟨v, v1, hv1, hv2, hv3⟩ := pkcs7_trailer m
  have hpl := pkcs7_length m
  have hg : ((msgs.map (pkcs7 16)).flatten ++ pkcs7 16 m).getLast? = some v := by
    rw [List.getLast?_append, hv1]; rfl
  have hv := hv2.1
  have hdrop : ((msgs.map (pkcs7 16)).flatten ++ pkcs7 16 m).length - v.toNat =
      (msgs.map (pkcs7 16)).flatten.length + ((pkcs7 16 m).length - v.toNat) := by
    rw [List.length_append]; omega
  have ht : Trailer ((msgs.map (pkcs7 16)).flatten ++ pkcs7 16 m) v := by
    refine ⟨hv, ?_⟩
    rw [hdrop, ← List.drop_drop, List.drop_left]
    exact hv2.2
  rcases h4 _ rfl with ⟨a, b⟩ | ⟨w, a, b, last, c, e⟩ | ⟨w, a, b, c⟩
  · rw [a] at hg; cases hg
  · rw [hg] at a
    injection a with a
    subst a
    refine ⟨d, rs, last, by rw [← c]; exact h1, ?_⟩
    rw [e, hdrop, List.take_length_add_append, hv3]
  · rw [hg] at a
    injection a with a
    subst a
    exact absurd ht b

/-- **C56.** The same with the `Cipher` itself, which gets every message in any pieces. -/
theorem C56_cipher (T : Target) (iv : Vector U8 16) (key : List U8) (hk : key.length = 16 ∨ key.length = 24 ∨ key.length = 32)
    (msgs : List (List (List U8))) (m : List (List U8)) :
    ∃ (c c' : Cipher) (cts : List (List (List U8))),
      (Cipher.new iv).init T key = .ok (c, .ok ()) ∧
      encMessages T c (msgs ++ [m]) = .ok (c', cts.map (·.map .ok)) ∧
      ∀ chunks : List (List U8), chunks.flatten = cts.flatten.flatten →
        ∃ (d : Decipher) (rs : List (List U8)) (last : List U8),
          drun T (Decipher.new iv) (.init key :: (chunks.map .write ++ [.flush])) = .ok (d, .ok [] :: (rs.map .ok ++ [.ok last])) ∧
          rs.flatten ++ last = (msgs.map fun m => pkcs7 16 m.flatten).flatten ++ m.flatten := by
  obtain ⟨c, c', cts, h1, h2, h3, -⟩ := Cbc.C37_message_sequences T iv key hk (msgs ++ [m])
  refine ⟨c, c', cts, h1, h2, fun chunks hc => ?_⟩
  obtain ⟨d, rs, last, h4, h5⟩ := C56_missing_flush T iv key hk (msgs.map (·.flatten)) m.flatten chunks (by
    rw [hc, List.flatten_flatten, h3, List.map_append, List.map_singleton])
  refine ⟨d, rs, last, h4, ?_⟩
  rw [h5, List.map_map]
  rfl

/-- Three messages, one of them empty, in pieces. -/
example (T : Target) (iv : Vector U8 16) := C56_cipher T iv (List.replicate 16 7) (.inl rfl) [[[1], [2, 3]], []] [[4]]

/-- Two messages `m`, `m'` of one byte: 17 bytes come back, 15 of them padding. -/
example (T : Target) (iv : Vector U8 16) (x y : U8) :
    ∃ (d : Decipher) (rs : List (List U8)) (last : List U8),
      drun T (Decipher.new iv) (.init (List.replicate 16 7) ::
          ((chain (List.replicate 16 7) iv.toList [[x], [y]]).map .write ++ [.flush]))
        = .ok (d, .ok [] :: (rs.map .ok ++ [.ok last])) ∧
      rs.flatten ++ last = x :: List.replicate 15 15 ++ [y] :=
  C56_missing_flush T iv (List.replicate 16 7) (Or.inl (by simp)) [[x]] [y] _ rfl

/-! ### C38, C57 -/

theorem session_flush (T : Target) (iv : Vector U8 16) (key : List U8)
    (hk : key.length = 16 ∨ key.length = 24 ∨ key.length = 32) (chunks : List (List U8)) (P : List U8)
    (hP : decrypt key iv.toList chunks.flatten = P) :
    ∃ (d : Decipher) (rs : List (List U8)),
      drun T (Decipher.new iv) (.init key :: (chunks.map .write ++ [.flush]))
        = .ok (d, .ok [] :: (rs.map .ok ++ [flushOf (P.drop (P.length - 16))])) := by
  obtain ⟨d, rs, r, h1, h2, h3, h4⟩ := decipher_session T iv key hk chunks
  have f := h3 chunks.length _ rfl
  rw [List.take_length, ← h2, List.take_length] at f
  have hl := decrypt_length key iv.toList chunks.flatten (by simp)
  have := flushOf_spec _ _ r (by omega) f (h4 _ rfl)
  rw [hP] at this
  exact ⟨d, rs, by rw [← this]; exact h1⟩

/-- C38, the answer of `flush`: a change of a ciphertext block that is followed by at least two more blocks is not noticed by
`flush`. -/
theorem C38_flush (T : Target) (iv : Vector U8 16) (key : List U8)
    (hk : key.length = 16 ∨ key.length = 24 ∨ key.length = 32) (A c c' B : List U8) (hA : A.length % 16 = 0)
    (hc : c.length = 16) (hc' : c'.length = 16) (hB : 32 ≤ B.length) (chunks chunks' : List (List U8))
    (h : chunks.flatten = A ++ c ++ B) (h' : chunks'.flatten = A ++ c' ++ B) :
    ∃ (d d' : Decipher) (rs rs' : List (List U8)) (r : Except DecipherError (List U8)),
      drun T (Decipher.new iv) (.init key :: (chunks.map .write ++ [.flush])) = .ok (d, .ok [] :: (rs.map .ok ++ [r])) ∧
      drun T (Decipher.new iv) (.init key :: (chunks'.map .write ++ [.flush])) = .ok (d', .ok [] :: (rs'.map .ok ++ [r])) := by
  have key' : ∀ w : List U8, w.length = 16 → ∃ pre : List U8,
      decrypt key iv.toList (A ++ w ++ B) = pre ++ (decrypt key w B) := fun w hw =>
    ⟨_, by rw [decrypt_split _ _ _ _ _ hA hw, ← List.append_assoc]⟩
  obtain ⟨q, post, hq, hd⟩ := decrypt_first key B
  have hlB : ∀ w : List U8, w.length = 16 → (decrypt key w B).length = 16 * (B.length / 16) := fun w hw =>
    decrypt_length key w B hw
  have hq : q.length = 16 := by
    rcases hq with hq | ⟨rfl, rfl⟩
    · exact hq
    · have := hlB c hc
      rw [hd] at this
      simp only [Spec.xorBytes, List.zipWith_nil_left, List.append_nil, List.length_nil] at this
      omega
  have hdrop : ∀ w : List U8, w.length = 16 → ∀ P, P = decrypt key iv.toList (A ++ w ++ B) →
      P.drop (P.length - 16) = post.drop (post.length - 16) := by
    rintro w hw P rfl
    obtain ⟨pre, e⟩ := key' w hw
    have hp := hlB w hw
    have hxl := xor_length q w hq hw
    rw [e]
    rw [hd, List.length_append, hxl] at hp
    rw [hd, ← List.append_assoc, List.drop_append, List.drop_of_length_le, List.nil_append]
    · congr 1
      rw [List.length_append, List.length_append, hxl]
      omega
    · rw [List.length_append, List.length_append, List.length_append, hxl]
      omega
  obtain ⟨d, rs, e1⟩ := session_flush T iv key hk chunks _ rfl
  obtain ⟨d', rs', e2⟩ := session_flush T iv key hk chunks' _ rfl
  rw [hdrop c hc _ (by rw [h])] at e1
  rw [hdrop c' hc' _ (by rw [h'])] at e2
  exact ⟨d, d', rs, rs', _, e1, e2⟩

/-- The second of four blocks is another one. -/
example (T : Target) (iv : Vector U8 16) := C38_flush T iv (List.replicate 16 1) (.inl rfl) (List.replicate 16 2) (List.replicate 16 3)
  (List.replicate 16 4) (List.replicate 32 5) rfl rfl rfl (by decide) [List.replicate 16 2, List.replicate 16 3, List.replicate 32 5]
  [List.replicate 16 2 ++ List.replicate 16 4 ++ List.replicate 32 5] rfl rfl

/-- **C57.** Padding oracle. Whole blocks `A`, a block `c` and a last block `b` decrypt to some bytes with the last block `p`. If
`c` is replaced by `c'`, `flush` succeeds exactly when `p` xor `c` xor `c'` ends in a correct trailer (or in a byte 0, see C33):
who can submit ciphertexts and see whether `flush` succeeds learns about `p`. -/
theorem C57_padding_oracle (T : Target) (iv : Vector U8 16) (key : List U8)
    (hk : key.length = 16 ∨ key.length = 24 ∨ key.length = 32) (A c c' b p : List U8) (hA : A.length % 16 = 0)
    (hc : c.length = 16) (hc' : c'.length = 16) (hb : b.length = 16)
    (hp : p = (decrypt key iv.toList (A ++ c ++ b)).drop (A.length + 16)) (chunks : List (List U8))
    (h : chunks.flatten = A ++ c' ++ b) :
    ∃ (d : Decipher) (rs : List (List U8)) (r : Except DecipherError (List U8)),
      drun T (Decipher.new iv) (.init key :: (chunks.map .write ++ [.flush])) = .ok (d, .ok [] :: (rs.map .ok ++ [r])) ∧
      ((∃ last, r = .ok last) ↔ ∃ v : U8, v.toNat ≤ 16 ∧ ∃ m : List U8,
        Spec.xorBytes p (Spec.xorBytes c c') = m ++ List.replicate v.toNat v ∧ (v = 0 → m.getLast? = some 0)) := by
  have hlast : ∀ w : List U8, w.length = 16 →
      (decrypt key iv.toList (A ++ w ++ b)).drop (A.length + 16) = Spec.xorBytes (Spec.Aes.decrypt key b) w ∧
      (decrypt key iv.toList (A ++ w ++ b)).length = A.length + 32 := by
    intro w hw
    have h1 : decrypt key w b = Spec.xorBytes (Spec.Aes.decrypt key b) w := by
      have := blocks_cons b [] hb
      rw [List.append_nil, blocks_short [] (by simp)] at this
      rw [decrypt, this]
      simp [decBlocks]
    have hl := decrypt_length key iv.toList (A ++ w ++ b) (by simp)
    have hlA := decrypt_length key iv.toList A (by simp)
    have hll : (lastBlock iv.toList A).length = 16 := by
      rw [lastBlock, List.getLastD_eq_getLast?]
      cases e : (blocks A).getLast? with
      | none => simp
      | some x => exact mem_blocks A x (List.mem_of_getLast? e)
    have hx := xor_length (Spec.Aes.decrypt key w) (lastBlock iv.toList A) (aes_decrypt_length _ _) hll
    constructor
    · rw [decrypt_split _ _ _ _ _ hA hw, ← List.append_assoc, List.drop_left' (by rw [List.length_append, hlA, hx]; omega), h1]
    · rw [hl, List.length_append, List.length_append, hw, hb]; omega
  obtain ⟨d, rs, e1⟩ := session_flush T iv key hk chunks _ rfl
  rw [h, (hlast c' hc').2, show A.length + 32 - 16 = A.length + 16 by omega, (hlast c' hc').1] at e1
  refine ⟨d, rs, _, e1, ?_⟩
  have hD := aes_decrypt_length key b
  have hpx : Spec.xorBytes p (Spec.xorBytes c c') = Spec.xorBytes (Spec.Aes.decrypt key b) c' := by
    rw [hp, (hlast c hc).1]
    apply List.ext_getElem
    · simp [Spec.xorBytes, hD, hc, hc']
    · intro i h1 _
      have hi : i < c.length := by simp [Spec.xorBytes, hD, hc, hc'] at h1; omega
      simp only [Spec.xorBytes, List.getElem_zipWith]
      rw [BitVec.xor_assoc, ← BitVec.xor_assoc c[i], BitVec.xor_self, BitVec.zero_xor]
  rw [hpx]
  have hw := xor_length _ _ hD hc'
  generalize Spec.xorBytes (Spec.Aes.decrypt key b) c' = w at hw
  have hne : w ≠ [] := by rintro rfl; simp at hw
  obtain ⟨v, hv⟩ : ∃ v, w.getLast? = some v := ⟨_, List.getLast?_eq_some_getLast hne⟩
  rw [flushOf, hv]
  dsimp only
  constructor
  · rintro ⟨last, hl⟩
    split at hl
    · rename_i ht
      refine ⟨v, ht.1, w.take (16 - v.toNat), ?_, ?_⟩
      · conv => lhs; rw [← List.take_append_drop (16 - v.toNat) w]
        congr 1
        refine List.eq_replicate_iff.2 ⟨?_, ht.2⟩
        rw [List.length_drop]
        have := ht.1
        omega
      · rintro rfl
        rw [show 16 - (0 : U8).toNat = w.length by rw [hw]; rfl, List.take_length, hv]
    · cases hl
  · rintro ⟨u, hu, m, hm, h0⟩
    have huv : u = v := by
      by_cases hu0 : u = 0
      · have hm' : w = m := by rw [hm, hu0]; simp
        rw [hm', h0 hu0] at hv
        injection hv with hv
        rw [hu0, hv]
      · have : u.toNat ≠ 0 := fun e => hu0 (BitVec.eq_of_toNat_eq e)
        rw [hm, List.getLast?_append, List.getLast?_replicate, if_neg this] at hv
        simpa using hv
    subst huv
    rw [if_pos]
    · exact ⟨_, rfl⟩
    · refine ⟨hu, ?_⟩
      have hl := congrArg List.length hm
      rw [hw, List.length_append, List.length_replicate] at hl
      rw [hm, List.drop_left' (by omega)]
      intro x hx
      exact (List.mem_replicate.1 hx).2

/-- A ciphertext of three blocks, with another one in the middle. -/
example (T : Target) (iv : Vector U8 16) := C57_padding_oracle T iv (List.replicate 16 1) (.inl rfl) (List.replicate 16 2) (List.replicate 16 3)
  (List.replicate 16 4) (List.replicate 16 5) _ rfl rfl rfl rfl rfl [List.replicate 16 2, List.replicate 16 4, List.replicate 16 5] rfl

/-- The hypotheses are met by two arbitrary blocks. -/
example (a b x : U8) : (List.replicate 16 a).length = 16 ∧ ([] : List U8).length % 16 = 0 ∧
    [List.replicate 16 x ++ List.replicate 16 b].flatten = [] ++ List.replicate 16 x ++ List.replicate 16 b := by simp

end Verif.Props.CbcMisuse
