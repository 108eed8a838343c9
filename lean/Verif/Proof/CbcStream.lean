import Verif.Proof.Cbc
import Verif.Props.CbcRun

/-! `aes_cbc.rs`: histories of calls. -/

namespace Verif.AesCbc
open Verif Verif.Aes Verif.Pkcs7 Spec.Cbc
open Verif.Props.Aes (Holds init_valid init_invalid)
open Verif.Props.Pkcs7 (drop_append_le take_add_drop unpad_rest)

theorem crun_cons (T : Target) {c c' c'' : Cipher} {x : Call} {xs : List Call} {r : Except AESError (List U8)}
    {rs : List (Except AESError (List U8))} (h1 : cstep T c x = .ok (c', r)) (h2 : crun T c' xs = .ok (c'', rs)) :
    crun T c (x :: xs) = .ok (c'', r :: rs) := by
  rw [crun, h1]
  simp only [ok_bind]
  rw [h2]
  rfl

theorem drun_cons (T : Target) {d d' d'' : Decipher} {x : Call} {xs : List Call} {r : Except DecipherError (List U8)}
    {rs : List (Except DecipherError (List U8))} (h1 : dstep T d x = .ok (d', r)) (h2 : drun T d' xs = .ok (d'', rs)) :
    drun T d (x :: xs) = .ok (d'', r :: rs) := by
  rw [drun, h1]
  simp only [ok_bind]
  rw [h2]
  rfl

theorem crun_append (T : Target) {c c' c'' : Cipher} {xs ys : List Call} {rs ss : List (Except AESError (List U8))}
    (h1 : crun T c xs = .ok (c', rs)) (h2 : crun T c' ys = .ok (c'', ss)) :
    crun T c (xs ++ ys) = .ok (c'', rs ++ ss) := by
  induction xs generalizing c rs with
  | nil =>
    simp only [crun, pure_eq_ok] at h1
    injection h1 with h1
    injection h1 with h1 h1'
    subst h1 h1'
    exact h2
  | cons x xs ih =>
    rw [crun] at h1
    cases e : cstep T c x with
    | error p => rw [e] at h1; cases h1
    | ok p =>
      obtain ⟨c1, r⟩ := p
      rw [e] at h1
      simp only [ok_bind] at h1
      cases e' : crun T c1 xs with
      | error p => rw [e'] at h1; cases h1
      | ok p =>
        obtain ⟨c2, rs'⟩ := p
        rw [e'] at h1
        simp only [ok_bind, pure_eq_ok] at h1
        injection h1 with h1
        injection h1 with h1 h1'
        subst h1 h1'
        exact crun_cons T e (ih e')

theorem drun_append (T : Target) {d d' d'' : Decipher} {xs ys : List Call} {rs ss : List (Except DecipherError (List U8))}
    (h1 : drun T d xs = .ok (d', rs)) (h2 : drun T d' ys = .ok (d'', ss)) :
    drun T d (xs ++ ys) = .ok (d'', rs ++ ss) := by
  induction xs generalizing d rs with
  | nil =>
    simp only [drun, pure_eq_ok] at h1
    injection h1 with h1
    injection h1 with h1 h1'
    subst h1 h1'
    exact h2
  | cons x xs ih =>
    rw [drun] at h1
    cases e : dstep T d x with
    | error p => rw [e] at h1; cases h1
    | ok p =>
      obtain ⟨c1, r⟩ := p
      rw [e] at h1
      simp only [ok_bind] at h1
      cases e' : drun T c1 xs with
      | error p => rw [e'] at h1; cases h1
      | ok p =>
        obtain ⟨c2, rs'⟩ := p
        rw [e'] at h1
        simp only [ok_bind, pure_eq_ok] at h1
        injection h1 with h1
        injection h1 with h1 h1'
        subst h1 h1'
        exact drun_cons T e (ih e')

/-! ### Writes on a `Cipher` with a key -/

theorem cipher_writes (T : Target) (key : List U8) (chunks : List (List U8)) (c : Cipher) (s : List U8)
    (h : Holds c.aes key) (hp : c.pad = ⟨16, s⟩) (hs : s.length < 16) :
    ∃ (c' : Cipher) (rs : List (List U8)), crun T c (chunks.map .write) = .ok (c', rs.map .ok) ∧ rs.length = chunks.length ∧
      (∀ i, (rs.take i).flatten
        = (encBlocks (Spec.Aes.encrypt key) c.iv.toList (blocks (s ++ (chunks.take i).flatten))).flatten) ∧
      c'.aes = c.aes ∧
      c'.pad = ⟨16, (s ++ chunks.flatten).drop (padCut 16 (s ++ chunks.flatten).length)⟩ ∧
      c'.iv.toList = (encBlocks (Spec.Aes.encrypt key) c.iv.toList (blocks (s ++ chunks.flatten))).getLastD c.iv.toList := by
  induction chunks generalizing c s with
  | nil =>
    have hc : padCut 16 s.length = 0 := by rw [padCut]; omega
    refine ⟨c, [], rfl, rfl, ?_, rfl, ?_, ?_⟩
    · intro i
      simp only [List.take_nil, List.flatten_nil, List.append_nil]
      rw [blocks_short s hs]; rfl
    · simp only [List.flatten_nil, List.append_nil]
      rw [hc, List.drop_zero, hp]
    · simp only [List.flatten_nil, List.append_nil]
      rw [blocks_short s hs]; rfl
  | cons b chunks ih =>
    obtain ⟨iv, h1, h2⟩ := cipher_write_ok T c key s h hp b
    have hlen : ((s ++ b).drop (padCut 16 (s ++ b).length)).length < 16 := by
      rw [List.length_drop, padCut_rest]; omega
    obtain ⟨c', rs, h3, h4, h5, h6, h7, h8⟩ := ih ⟨c.aes, ⟨16, (s ++ b).drop (padCut 16 (s ++ b).length)⟩, iv⟩
      ((s ++ b).drop (padCut 16 (s ++ b).length)) h rfl hlen
    simp only [h2] at h5 h8
    have key_eq (m : List U8) : encBlocks (Spec.Aes.encrypt key) c.iv.toList (blocks (s ++ (b ++ m)))
        = encBlocks (Spec.Aes.encrypt key) c.iv.toList (blocks (s ++ b)) ++
          encBlocks (Spec.Aes.encrypt key) ((encBlocks (Spec.Aes.encrypt key) c.iv.toList (blocks (s ++ b))).getLastD c.iv.toList)
            (blocks ((s ++ b).drop (padCut 16 (s ++ b).length) ++ m)) := by
      rw [← List.append_assoc, blocks_append, encBlocks_append]
    refine ⟨c', (encBlocks (Spec.Aes.encrypt key) c.iv.toList (blocks (s ++ b))).flatten :: rs, ?_, by simp [h4], ?_, h6, ?_, ?_⟩
    · rw [List.map_cons, List.map_cons]
      exact crun_cons T h1 h3
    · intro i
      cases i with
      | zero =>
        simp only [List.take_zero, List.flatten_nil, List.append_nil]
        rw [blocks_short s hs]; rfl
      | succ i =>
        rw [List.take_succ_cons, List.take_succ_cons, List.flatten_cons, List.flatten_cons, key_eq, List.flatten_append, h5]
    · rw [h7, List.flatten_cons, ← List.append_assoc, drop_append_le (s ++ b) _ _ (padCut_le _ _), List.drop_drop,
        List.length_drop, padCut_step 16 (s ++ b).length (s ++ b ++ chunks.flatten).length (by simp)]
    · rw [h8, List.flatten_cons, key_eq, getLastD_append]

theorem pkcs7_blocks (m : List U8) :
    blocks (pkcs7 16 m) = blocks m ++ [pkcs7 16 (m.drop (padCut 16 m.length))] := by
  have hl : (m.drop (padCut 16 m.length)).length = m.length % 16 := by rw [List.length_drop, padCut_rest]
  have e : m.drop (padCut 16 m.length) ++ List.replicate (16 - m.length % 16) (BitVec.ofNat 8 (16 - m.length % 16))
      = pkcs7 16 (m.drop (padCut 16 m.length)) := by
    rw [pkcs7, hl, Nat.mod_mod]
  have hp : (pkcs7 16 (m.drop (padCut 16 m.length))).length = 16 := by
    rw [← e, List.length_append, List.length_replicate, hl]; omega
  conv => lhs; rw [pkcs7]
  rw [blocks_append, e]
  have := blocks_cons _ [] hp
  rw [List.append_nil, blocks_short [] (by simp)] at this
  rw [this]

theorem pkcs7_length (m : List U8) : (pkcs7 16 m).length = 16 * (m.length / 16 + 1) := by
  rw [pkcs7, List.length_append, List.length_replicate]; omega

/-- A whole message: writes, then flush. -/
theorem cipher_message (T : Target) (key : List U8) (chunks : List (List U8)) (c : Cipher) (s : List U8)
    (h : Holds c.aes key) (hp : c.pad = ⟨16, s⟩) (hs : s.length < 16) :
    ∃ (c' : Cipher) (rs : List (List U8)) (last : List U8), crun T c (chunks.map .write ++ [.flush]) = .ok (c', rs.map .ok ++ [.ok last]) ∧
      rs.length = chunks.length ∧ last.length = 16 ∧
      (∀ i, (rs.take i).flatten
        = (encBlocks (Spec.Aes.encrypt key) c.iv.toList (blocks (s ++ (chunks.take i).flatten))).flatten) ∧
      rs.flatten ++ last = encrypt key c.iv.toList (pkcs7 16 (s ++ chunks.flatten)) ∧
      c'.aes = c.aes ∧ c'.pad = ⟨16, []⟩ ∧ c'.iv.toList = last := by
  obtain ⟨c1, rs, h1, h2, h3, h4, h5, h6⟩ := cipher_writes T key chunks c s h hp hs
  have hlen : ((s ++ chunks.flatten).drop (padCut 16 (s ++ chunks.flatten).length)).length < 16 := by
    rw [List.length_drop, padCut_rest]; omega
  obtain ⟨iv, h7, h8⟩ := cipher_flush_ok T c1 key _ (h4 ▸ h) h5 hlen
  refine ⟨⟨c1.aes, ⟨16, []⟩, iv⟩, rs, iv.toList, ?_, h2, by simp, h3, ?_, h4, rfl, rfl⟩
  · exact crun_append T h1 (crun_cons T (x := .flush) h7 rfl)
  · have := h3 rs.length
    rw [List.take_length, h2, List.take_length] at this
    rw [this, h8, encrypt, pkcs7_blocks, encBlocks_append, List.flatten_append, h6]
    simp only [encBlocks, List.flatten_cons, List.flatten_nil, List.append_nil]

/-! ### Writes on a `Decipher` with a key -/

theorem decipher_writes (T : Target) (key : List U8) (chunks : List (List U8)) (d : Decipher) (s hold : List U8)
    (h : Holds d.aes key) (hb : d.buffer = ⟨16, s⟩) (hs : s.length < 16) (hu : d.unpad = ⟨16, hold⟩)
    (hh : hold.length ≤ 16) :
    ∃ (d' : Decipher) (rs : List (List U8)), drun T d (chunks.map .write) = .ok (d', rs.map .ok) ∧ rs.length = chunks.length ∧
      (∀ i P, P = hold ++ (decBlocks (Spec.Aes.decrypt key) d.iv.toList (blocks (s ++ (chunks.take i).flatten))).flatten →
        (rs.take i).flatten = P.take (unpadCut 16 P.length)) ∧
      d'.aes = d.aes ∧
      d'.buffer = ⟨16, (s ++ chunks.flatten).drop (padCut 16 (s ++ chunks.flatten).length)⟩ ∧
      (∀ P, P = hold ++ (decBlocks (Spec.Aes.decrypt key) d.iv.toList (blocks (s ++ chunks.flatten))).flatten →
        d'.unpad = ⟨16, P.drop (unpadCut 16 P.length)⟩) ∧
      d'.iv.toList = (blocks (s ++ chunks.flatten)).getLastD d.iv.toList := by
  induction chunks generalizing d s hold with
  | nil =>
    have hc : padCut 16 s.length = 0 := by rw [padCut]; omega
    refine ⟨d, [], rfl, rfl, ?_, rfl, ?_, ?_, ?_⟩
    · rintro i P rfl
      simp only [List.take_nil, List.flatten_nil, List.append_nil]
      rw [blocks_short s hs]
      simp only [decBlocks, List.flatten_nil, List.append_nil]
      rw [unpadCut_small _ hh, List.take_zero]
    · simp only [List.flatten_nil, List.append_nil]
      rw [hc, List.drop_zero, hb]
    · rintro P rfl
      simp only [List.flatten_nil, List.append_nil]
      rw [blocks_short s hs]
      simp only [decBlocks, List.flatten_nil, List.append_nil]
      rw [unpadCut_small _ hh, List.drop_zero, hu]
    · simp only [List.flatten_nil, List.append_nil]
      rw [blocks_short s hs]; rfl
  | cons b chunks ih =>
    obtain ⟨iv, h1, h2⟩ := decipher_write_ok T d key s hold h hb hu hh b
    generalize hP1 : hold ++ (decBlocks (Spec.Aes.decrypt key) d.iv.toList (blocks (s ++ b))).flatten = P1 at h1
    have hlen : ((s ++ b).drop (padCut 16 (s ++ b).length)).length < 16 := by
      rw [List.length_drop, padCut_rest]; omega
    have hlen' : (P1.drop (unpadCut 16 P1.length)).length ≤ 16 := by
      rw [List.length_drop, unpadCut]; omega
    obtain ⟨d', rs, h3, h4, h5, h6, h7, h8, h9⟩ := ih ⟨d.aes, ⟨16, P1.drop (unpadCut 16 P1.length)⟩, iv,
        ⟨16, (s ++ b).drop (padCut 16 (s ++ b).length)⟩⟩ ((s ++ b).drop (padCut 16 (s ++ b).length))
      (P1.drop (unpadCut 16 P1.length)) h rfl hlen rfl hlen'
    simp only [h2] at h5 h8 h9
    have key_eq (m : List U8) : hold ++ (decBlocks (Spec.Aes.decrypt key) d.iv.toList (blocks (s ++ (b ++ m)))).flatten
        = P1 ++ (decBlocks (Spec.Aes.decrypt key) ((blocks (s ++ b)).getLastD d.iv.toList)
            (blocks ((s ++ b).drop (padCut 16 (s ++ b).length) ++ m))).flatten := by
      rw [← hP1, ← List.append_assoc s b m, blocks_append, decBlocks_append, List.flatten_append, List.append_assoc]
    refine ⟨d', P1.take (unpadCut 16 P1.length) :: rs, ?_, by simp [h4], ?_, h6, ?_, ?_, ?_⟩
    · rw [List.map_cons, List.map_cons]
      exact drun_cons T h1 h3
    · rintro i P rfl
      cases i with
      | zero =>
        simp only [List.take_zero, List.flatten_nil, List.append_nil]
        rw [blocks_short s hs]
        simp only [decBlocks, List.flatten_nil, List.append_nil]
        rw [unpadCut_small _ hh, List.take_zero]
      | succ i =>
        rw [List.take_succ_cons, List.take_succ_cons, List.flatten_cons, List.flatten_cons, key_eq, h5 i _ rfl]
        generalize (decBlocks (Spec.Aes.decrypt key) _ _).flatten = Q
        rw [drop_append_le P1 Q _ (unpadCut_le _ _), take_add_drop P1 Q _ _ (unpadCut_le _ _), List.length_drop,
          unpadCut_step 16 P1.length (P1 ++ Q).length (by simp)]
    · rw [h7, List.flatten_cons, ← List.append_assoc, drop_append_le (s ++ b) _ _ (padCut_le _ _), List.drop_drop,
        List.length_drop, padCut_step 16 (s ++ b).length (s ++ b ++ chunks.flatten).length (by simp)]
    · rintro P rfl
      rw [h8 _ rfl, List.flatten_cons, key_eq]
      generalize (decBlocks (Spec.Aes.decrypt key) _ _).flatten = Q
      rw [drop_append_le P1 Q _ (unpadCut_le _ _), List.drop_drop, List.length_drop,
          unpadCut_step 16 P1.length (P1 ++ Q).length (by simp)]
    · rw [h9, List.flatten_cons, ← List.append_assoc, blocks_append (s ++ b), getLastD_append]

end Verif.AesCbc
