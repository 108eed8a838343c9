import Verif.Props.CbcMisuse
import Verif.Spec.CbcPaste

/-! Property C124: blocks of ciphertexts can be put together anew. -/

namespace Verif.Props.CbcPaste
open Verif Verif.Aes Verif.Pkcs7 Verif.AesCbc Spec.Cbc
open Verif.Props.Cbc (cipher_session decipher_session pkcs7_trailer C28_cbc_encrypt C32_cbc_decrypt)
open Verif.Props.CbcMisuse

/-- `c` is the ciphertext of the message `m`, from a `Cipher` that got it in some pieces. -/
def Encrypted (T : Target) (key : List U8) (iv : Vector U8 16) (m c : List U8) : Prop :=
  ∃ (chunks : List (List U8)) (o : Cipher) (rs : List (List U8)) (last : List U8),
    crun T (Cipher.new iv) (.init key :: (chunks.map .write ++ [.flush])) = .ok (o, .ok [] :: (rs.map .ok ++ [.ok last])) ∧
    chunks.flatten = m ∧ rs.flatten ++ last = c

theorem Encrypted.eq {T : Target} {key : List U8} (hk : key.length = 16 ∨ key.length = 24 ∨ key.length = 32) {iv : Vector U8 16} {m c : List U8}
    (h : Encrypted T key iv m c) : c = encrypt key iv.toList (pkcs7 16 m) := by
  obtain ⟨chunks, o, rs, last, h1, rfl, rfl⟩ := h
  obtain ⟨o', rs', last', h2, _, _, _, h3⟩ := cipher_session T iv key hk chunks
  have e := h1.symm.trans h2
  simp only [Except.ok.injEq, Prod.mk.injEq, List.cons.injEq, true_and] at e
  have e3 := List.append_inj' e.2 rfl
  have e4 : rs = rs' := (List.map_inj_right fun a b h => by cases h; rfl).1 e3.1
  have e5 : last = last' := by have := e3.2; simpa using this
  rw [e4, e5, h3]

theorem seen_enc (key iv : List U8) (ps : List (List U8)) (hiv : iv.length = 16) (hp : ∀ p ∈ ps, p.length = 16) (s : Seen)
    (hs : s ∈ seenBlocks iv (encBlocks (Spec.Aes.encrypt key) iv ps) ps) :
    s.block.length = 16 ∧ s.plain.length = 16 ∧ s.before.length = 16 ∧ Spec.Aes.decrypt key s.block = Spec.xorBytes s.plain s.before := by
  induction ps generalizing iv with
  | nil => cases hs
  | cons p ps ih =>
    have hpl := hp p (by simp)
    rw [encBlocks, seenBlocks] at hs
    rcases List.mem_cons.1 hs with rfl | hs
    · exact ⟨aes_encrypt_length _ _, hpl, hiv, aes_dec_enc _ _ (xor_length _ _ hpl hiv)⟩
    · exact ih _ (aes_encrypt_length _ _) (fun q hq => hp q (by simp [hq])) hs

theorem seen_last (before : List U8) (cs ps : List (List U8)) (h : cs.length = ps.length) (s : Seen)
    (hs : (seenBlocks before cs ps).getLast? = some s) : ps.getLast? = some s.plain := by
  induction cs generalizing before ps with
  | nil => simp [seenBlocks] at hs
  | cons c cs ih =>
    match ps, h with
    | p :: ps, h =>
      rw [seenBlocks] at hs
      match cs, ps, h with
      | [], [], _ => simp [seenBlocks] at hs; simp [← hs]
      | c' :: cs, p' :: ps, h =>
        rw [seenBlocks, List.getLast?_cons_cons] at hs
        rw [List.getLast?_cons_cons]
        exact ih c (p' :: ps) (by simpa using h) (by rw [seenBlocks]; exact hs)

theorem dec_opened (key iv : List U8) (L : List Seen)
    (hL : ∀ s ∈ L, Spec.Aes.decrypt key s.block = Spec.xorBytes s.plain s.before) :
    (decBlocks (Spec.Aes.decrypt key) iv (L.map Seen.block)).flatten = opened iv L := by
  induction L generalizing iv with
  | nil => rfl
  | cons s L ih =>
    rw [List.map_cons, decBlocks, List.flatten_cons, ih _ fun t ht => hL t (by simp [ht]), opened, hL s (by simp)]

theorem opened_append (iv : List U8) (L : List Seen) (s : Seen) :
    opened iv (L ++ [s]) = opened iv L ++ Spec.xorBytes (Spec.xorBytes s.plain s.before) ((L.map Seen.block).getLastD iv) := by
  induction L generalizing iv with
  | nil => simp [opened]
  | cons t L ih => rw [List.cons_append, opened, opened, ih, List.append_assoc, List.map_cons, List.getLastD_cons]

theorem opened_length (iv : List U8) (L : List Seen) (hiv : iv.length = 16)
    (hL : ∀ s ∈ L, s.block.length = 16 ∧ s.plain.length = 16 ∧ s.before.length = 16) : (opened iv L).length = 16 * L.length := by
  induction L generalizing iv with
  | nil => rfl
  | cons s L ih =>
    obtain ⟨h1, h2, h3⟩ := hL s (by simp)
    rw [opened, List.length_append, xor_length _ _ (xor_length _ _ h2 h3) hiv, ih _ h1 fun t ht => hL t (by simp [ht]), List.length_cons]
    omega

/-- Everything about blocks seen in ciphertexts that is used. -/
theorem facts {T : Target} {key : List U8} (hk : key.length = 16 ∨ key.length = 24 ∨ key.length = 32) {s : Seen}
    (h : ∃ iv m c, Encrypted T key iv m c ∧ s ∈ seen iv.toList m c) :
    s.block.length = 16 ∧ s.plain.length = 16 ∧ s.before.length = 16 ∧ Spec.Aes.decrypt key s.block = Spec.xorBytes s.plain s.before := by
  obtain ⟨iv, m, c, h, hs⟩ := h
  rw [seen, h.eq hk, blocks_encrypt] at hs
  exact seen_enc key _ _ (by simp) (mem_blocks _) s hs

theorem decrypt_pasted {T : Target} {key : List U8} (hk : key.length = 16 ∨ key.length = 24 ∨ key.length = 32) (iv : List U8) (L : List Seen)
    (hL : ∀ s ∈ L, ∃ iv m c, Encrypted T key iv m c ∧ s ∈ seen iv.toList m c) :
    decrypt key iv (L.map Seen.block).flatten = opened iv L := by
  rw [decrypt, blocks_flatten _ fun b hb => ?_, dec_opened _ _ _ fun s hs => (facts hk (hL s hs)).2.2.2]
  obtain ⟨s, hs, rfl⟩ := List.mem_map.1 hb
  exact (facts hk (hL s hs)).1

/-- **C124.** Blocks are taken from any ciphertexts made with one key, some of them several times, and put together in any order. A
`Decipher` with that key and any iv, which gets them in any pieces, decrypts them to `opened`: to what follows, without the key, from
the messages and the ciphertexts. It accepts them exactly when that ends in bytes that all have the value of the last one, as many
as this value says and 16 at most, and takes these bytes off. -/
theorem C124_pasted (T : Target) (key : List U8) (hk : key.length = 16 ∨ key.length = 24 ∨ key.length = 32) (L : List Seen)
    (hL : ∀ s ∈ L, ∃ iv m c, Encrypted T key iv m c ∧ s ∈ seen iv.toList m c) (iv : Vector U8 16) (pieces : List (List U8))
    (hp : pieces.flatten = (L.map Seen.block).flatten) :
    ∃ (d : Decipher) (rs : List (List U8)) (r : Except DecipherError (List U8)),
      drun T (Decipher.new iv) (.init key :: (pieces.map .write ++ [.flush])) = .ok (d, .ok [] :: (rs.map .ok ++ [r])) ∧
      rs.flatten = (opened iv.toList L).take (16 * (L.length - 1)) ∧
      ((∃ last, r = .ok last) ↔ ∃ v, (opened iv.toList L).getLast? = some v ∧ Trailer (opened iv.toList L) v) ∧
      (∀ v last, (opened iv.toList L).getLast? = some v → r = .ok last → rs.flatten ++ last = (opened iv.toList L).take (16 * L.length - v.toNat)) := by
  have hl : (L.map Seen.block).flatten.length = 16 * L.length := by
    rw [List.length_flatten, List.map_map, List.map_congr_left (f := List.length ∘ Seen.block) (g := fun _ => 16) fun s hs => (facts hk (hL s hs)).1]
    rw [List.map_const', List.sum_replicate_nat, Nat.mul_comm]
  obtain ⟨d, rs, r, h1, _, _, h2, _, _, h3, h4⟩ := C32_cbc_decrypt T iv key hk pieces (opened iv.toList L)
    (by rw [hp, decrypt_pasted hk _ _ hL]) (by rw [hp, hl]; omega)
  have ho := opened_length iv.toList L (by simp) fun s hs => (by obtain ⟨a, b, c, _⟩ := facts hk (hL s hs); exact ⟨a, b, c⟩)
  rw [ho] at h2 h4
  refine ⟨d, rs, r, h1, ?_, h3, h4⟩
  rw [h2]
  congr 1
  omega

/-- **C124, accepted.** If the last block is the last block of a ciphertext and comes after the same block, or iv, as there, then
the blocks are accepted, whatever the blocks before are. The message that the `Decipher` gives is `opened` for the blocks before,
and the part of the old message behind its last whole block. -/
theorem C124_accepted (T : Target) (key : List U8) (hk : key.length = 16 ∨ key.length = 24 ∨ key.length = 32) (L : List Seen)
    (hL : ∀ s ∈ L, ∃ iv m c, Encrypted T key iv m c ∧ s ∈ seen iv.toList m c) (iv iv' : Vector U8 16) (m c : List U8)
    (hc : Encrypted T key iv m c) (s : Seen) (hs : (seen iv.toList m c).getLast? = some s)
    (hb : (L.map Seen.block).getLastD iv'.toList = s.before) (pieces : List (List U8))
    (hp : pieces.flatten = (L.map Seen.block).flatten ++ s.block) :
    ∃ (d : Decipher) (rs : List (List U8)) (last : List U8),
      drun T (Decipher.new iv') (.init key :: (pieces.map .write ++ [.flush])) = .ok (d, .ok [] :: (rs.map .ok ++ [.ok last])) ∧
      rs.flatten ++ last = opened iv'.toList L ++ m.drop (16 * (m.length / 16)) := by
  have hms : s ∈ seen iv.toList m c := List.mem_of_getLast? hs
  have hL' : ∀ t ∈ L ++ [s], ∃ iv m c, Encrypted T key iv m c ∧ t ∈ seen iv.toList m c := by
    intro t ht
    rcases List.mem_append.1 ht with ht | ht
    · exact hL t ht
    · rw [List.mem_singleton.1 ht]
      exact ⟨iv, m, c, hc, hms⟩
  obtain ⟨d, rs, r, h1, _, h2, h3⟩ := C124_pasted T key hk (L ++ [s]) hL' iv' pieces (by simp [hp])
  obtain ⟨f1, f2, f3, _⟩ := facts hk ⟨iv, m, c, hc, hms⟩
  have ho := opened_length iv'.toList L (by simp) fun s hs => (by obtain ⟨a, b, c, _⟩ := facts hk (hL s hs); exact ⟨a, b, c⟩)
  have hpl : s.plain = pkcs7 16 (m.drop (padCut 16 m.length)) := by
    have := seen_last _ _ _ (by rw [hc.eq hk, blocks_encrypt, encBlocks_length]) s hs
    rw [pkcs7_blocks, List.getLast?_concat] at this
    exact (Option.some.inj this).symm
  have e : opened iv'.toList (L ++ [s]) = pkcs7 16 (opened iv'.toList L ++ m.drop (16 * (m.length / 16))) := by
    rw [opened_append, hb, xor_xor _ _ (f2.trans f3.symm), hpl, pkcs7, pkcs7, List.length_append, ho, List.append_assoc,
      show (16 * L.length + (m.drop (16 * (m.length / 16))).length) % 16 = (m.drop (16 * (m.length / 16))).length % 16 by omega]
    rfl
  obtain ⟨v, _, v1, v2, v3⟩ := pkcs7_trailer (opened iv'.toList L ++ m.drop (16 * (m.length / 16)))
  rw [← e] at v1 v2 v3
  obtain ⟨last, rfl⟩ := h2.2 ⟨v, v1, v2⟩
  refine ⟨d, rs, last, h1, ?_⟩
  have := h3 v last v1 rfl
  rw [this, ← v3]
  congr 2
  rw [opened_append, List.length_append, List.length_append (as := opened _ _), ho,
    xor_length _ _ (xor_length _ _ f2 f3) (by rw [hb]; exact f3)]
  simp
  omega

/-- A message of 20 bytes has a ciphertext of two blocks. They are sent twice, one pair after the other. -/
example (T : Target) (key : List U8) (hk : key.length = 16) (iv : Vector U8 16) :
    ∃ c₀ c₁ : List U8, Encrypted T key iv (List.replicate 20 2) (c₀ ++ c₁) ∧
      ∃ (d : Decipher) (rs : List (List U8)) (last : List U8),
        drun T (Decipher.new iv) (.init key :: ([c₀ ++ c₁, c₀ ++ c₁].map .write ++ [.flush])) = .ok (d, .ok [] :: (rs.map .ok ++ [.ok last])) ∧
        rs.flatten ++ last = List.replicate 16 2 ++ (List.replicate 4 2 ++ List.replicate 12 12) ++
          Spec.xorBytes (Spec.xorBytes (List.replicate 16 2) iv.toList) c₁ ++ List.replicate 4 2 := by
  obtain ⟨o, rs, last, h1, h2, h3⟩ := C28_cbc_encrypt T iv key (.inl hk) [List.replicate 20 2]
  have hE : Encrypted T key iv (List.replicate 20 2) (rs.flatten ++ last) := ⟨_, o, rs, last, h1, by simp, rfl⟩
  have hb : blocks (rs.flatten ++ last) = encBlocks (Spec.Aes.encrypt key) iv.toList [List.replicate 16 2, List.replicate 4 2 ++ List.replicate 12 12] := by
    rw [h3, blocks_encrypt]
    congr 1
  have hf : rs.flatten ++ last = (encBlocks (Spec.Aes.encrypt key) iv.toList [List.replicate 16 2, List.replicate 4 2 ++ List.replicate 12 12]).flatten := by
    rw [h3, ← hb, h3, blocks_encrypt, encrypt]
  simp only [encBlocks, List.flatten_cons, List.flatten_nil, List.append_nil] at hb hf
  generalize hc₀ : Spec.Aes.encrypt key (Spec.xorBytes (List.replicate 16 2) iv.toList) = c₀ at hb hf
  generalize hc₁ : Spec.Aes.encrypt key (Spec.xorBytes (List.replicate 4 2 ++ List.replicate 12 12) c₀) = c₁ at hb hf
  have hseen : seen iv.toList (List.replicate 20 2) (rs.flatten ++ last) =
      [⟨iv.toList, c₀, List.replicate 16 2⟩, ⟨c₀, c₁, List.replicate 4 2 ++ List.replicate 12 12⟩] := by
    rw [seen, hb]
    rfl
  have l₀ : c₀.length = 16 := by rw [← hc₀]; exact aes_encrypt_length _ _
  obtain ⟨d, rs', last', h4, h5⟩ := C124_accepted T key (.inl hk)
    [⟨iv.toList, c₀, List.replicate 16 2⟩, ⟨c₀, c₁, List.replicate 4 2 ++ List.replicate 12 12⟩, ⟨iv.toList, c₀, List.replicate 16 2⟩]
    (fun s hs => ⟨iv, _, _, hE, by rw [hseen]; simp only [List.mem_cons, List.not_mem_nil, or_false] at hs ⊢; exact hs.elim .inl fun h => h.elim .inr .inl⟩) iv iv _ _ hE
    ⟨c₀, c₁, List.replicate 4 2 ++ List.replicate 12 12⟩ (by rw [hseen]; rfl) rfl [c₀ ++ c₁, c₀ ++ c₁] (by simp)
  refine ⟨c₀, c₁, hf ▸ hE, d, rs', last', h4, h5.trans ?_⟩
  simp only [opened, List.append_nil]
  rw [xor_xor _ _ (by simp), xor_xor _ _ (by simp [l₀])]
  simp

end Verif.Props.CbcPaste
