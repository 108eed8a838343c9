import Verif.Source.TraceTwo
import Verif.Source.TraceRounds
import Verif.Props.SideChannel
import Verif.Props.KeySchedule

/-!
C134: what an observer of one encryption learns who does not see the indices of the lookups, but only which part of the table each of
them falls into: the line of the cache, of `n` entries.

The observer of `Verif/Source/Leak.lean` sees whole indices, and C74 lets them see `init` too. Here they see only `AES::encrypt`, with
every index divided by `n`.
-/

set_option linter.constructorNameAsVariable false

namespace Verif.Props.CacheLines
open Verif Verif.Aes Verif.Source Verif.Props.ConstantTime Verif.Props.SideChannel

/-- What is left of an event when an index `i` is seen as the number of its line. -/
def blur (n : Nat) : Event → Event
  | .index i => .index (i / n)
  | e => e

/-- What is seen by the observer of lines of `n` entries. -/
def lines (n : Nat) (t : Trace) : Trace := t.map (blur n)

/-- The same line of a table of bytes, with `n` entries to a line. -/
def SameLine (n : Nat) (a b : U8) : Prop := a.toNat / n = b.toNat / n

theorem cells_lines (n : Nat) : ∀ {xs ys : List U8}, xs.length = ys.length → ∀ {r r' : Trace},
    lines n (xs.flatMap cellTrace) ++ r = lines n (ys.flatMap cellTrace) ++ r' → List.Forall₂ (SameLine n) xs ys ∧ r = r'
  | [], [], _, _, _, h => ⟨.nil, h⟩
  | x :: xs, y :: ys, hl, r, r', h => by
    simp only [lines, List.flatMap_cons, cellTrace, List.cons_append, List.nil_append, List.map_cons, blur, List.cons.injEq,
      Event.index.injEq, true_and] at h
    obtain ⟨h1, h2⟩ := h
    obtain ⟨i, j⟩ := cells_lines n (by simpa using hl) (r := r) (r' := r') h2
    exact ⟨.cons h1 i, j⟩

theorem cols_lines (n : Nat) : ∀ {xs ys : List (Vector U8 4)}, xs.length = ys.length → ∀ {r r' : Trace},
    lines n (xs.flatMap colTrace) ++ r = lines n (ys.flatMap colTrace) ++ r' →
      List.Forall₂ (fun a b => List.Forall₂ (SameLine n) a.toList b.toList) xs ys
  | [], [], _, _, _, _ => .nil
  | x :: xs, y :: ys, hl, r, r', h => by
    simp only [lines, List.flatMap_cons, colTrace, List.cons_append, List.map_cons, List.map_append, blur, List.cons.injEq, true_and,
      List.append_assoc] at h
    obtain ⟨h1, h2⟩ := cells_lines n (by simp) h
    exact .cons h1 (cols_lines n (by simpa using hl) (r := r) (r' := r') (by simpa only [lines, List.map_append, colTrace] using h2))

theorem block_lines (n : Nat) {a b : Block} {r r' : Trace}
    (h : lines n (a.toList.flatMap colTrace) ++ r = lines n (b.toList.flatMap colTrace) ++ r') (c i : Fin 4) :
    SameLine n (abs a i c) (abs b i c) := by
  have h := cols_lines n (by simp) h
  have h1 := (List.forall₂_iff_get.1 h).2 c.val (by simp) (by simp)
  have h2 := (List.forall₂_iff_get.1 h1).2 i.val (by simp) (by simp)
  simpa [abs] using h2

/-- The state that the first lookups are of: block and key, byte by byte. -/
theorem first_state {key : List U8} {a : AES} {ws : List U32}
    (h : IsSchedule (key.length / 4) key (4 * (a.round_count + 1)) ws) (hk : ValidKey key) (p : Vector U8 16) (r c : Fin 4) :
    abs (add_round_key (to_block p) (ws.take 4)) r c = p[4 * c.val + r.val] ^^^ key.getD (4 * c.val + r.val) 0 := by
  have hl : 4 ≤ ws.length := by rw [h.1]; omega
  have h4 : 4 ≤ key.length / 4 := by rcases hk with h | h | h <;> omega
  rw [add_key_ok (to_block p) (ws.take 4) (fun j => wordByte (ws.getD j 0)) 0 (by simp; omega)
    (fun c hc => by simp [show c < ws.length by omega]), load_ok, Spec.Aes.addRoundKey, Spec.Aes.load]
  have e := h.2 c.val (by omega)
  have hg : ws.getD (4 * 0 + c.val) 0 = ws[c.val]'(by omega) := by simp [show c.val < ws.length by omega]
  simp only [hg, e]
  rw [Spec.Aes.keyWord, dif_pos (Or.inr (by omega))]
  simp [Spec.byteAt, show r.val + 4 * c.val = 4 * c.val + r.val by omega, show 4 * c.val + r.val < 16 by omega]

/-- **C134.** Two AES objects are given keys, and each encrypts a block. Whoever sees of both encryptions the same, with lines of `n`
entries in place of indices, knows that block and key, added byte by byte, fall into the same lines. -/
theorem C134_lines (T : Target) (fuel depth n : Nat) (hf : 65 ≤ fuel) (hd : 8 ≤ depth) (k k' : List U8) (hk : ValidKey k)
    (hk' : ValidKey k') (obj obj' v v' : Val)
    (hi : call T crate fuel depth .aes_AES_init [encAES .new, bytes k] = .ok (v, [obj]))
    (hi' : call T crate fuel depth .aes_AES_init [encAES .new, bytes k'] = .ok (v', [obj'])) (p q : Vector U8 16)
    (h : lines n (callT T crate fuel depth .aes_AES_encrypt [obj, bytes p.toList]).1 =
      lines n (callT T crate fuel depth .aes_AES_encrypt [obj', bytes q.toList]).1) (i : Fin 16) :
    SameLine n (p[i] ^^^ k.getD i 0) (q[i] ^^^ k'.getD i 0) := by
  obtain ⟨F, rfl⟩ := Nat.exists_eq_add_of_le' hf
  obtain ⟨d, rfl⟩ := Nat.exists_eq_add_of_le' hd
  obtain ⟨a, e, -, hc, ws, hw, hs⟩ := Aes.init_valid T .new k hk
  obtain ⟨a', e', -, hc', ws', hw', hs'⟩ := Aes.init_valid T .new k' hk'
  rw [src_AES_init T F (d + 5), e] at hi
  rw [src_AES_init T F (d + 5), e'] at hi'
  obtain rfl : encAES a = obj := by
    exact (List.cons.inj (Prod.mk.inj (Except.ok.inj hi)).2).1
  obtain rfl : encAES a' = obj' := by
    exact (List.cons.inj (Prod.mk.inj (Except.ok.inj hi')).2).1
  have f1 := first_state hs hk p
  have f2 := first_state hs' hk' q
  have l1 := hs.1
  have l2 := hs'.1
  obtain ⟨nr, ks⟩ := a
  obtain ⟨nr', ks'⟩ := a'
  cases hw
  cases hw'
  cases hc
  cases hc'
  obtain ⟨t, ht⟩ := trace_encrypt T (F + 65) (d + 5) (k.length / 4 + 6) ws p (by omega) (by omega)
  obtain ⟨t', ht'⟩ := trace_encrypt T (F + 65) (d + 5) (k'.length / 4 + 6) ws' q (by omega) (by omega)
  rw [ht, ht', same_trace T (F + 65) (d + 5 + 2) .aes_to_block (by decide)
      (.cons (low_bytes (by simp : p.toList.length = q.toList.length)) .nil),
    same_trace T (F + 65) (d + 5 + 2) .aes_AESEncrypt_add_round_key (by decide)
      (.cons (low_block (to_block p) (to_block q)) (.cons (low_words (by simp; omega : (ws.take 4).length = (ws'.take 4).length)) .nil))] at h
  simp only [lines, List.map_cons, List.map_append, List.cons.injEq, true_and, List.append_cancel_left_eq] at h
  have h := block_lines n h.2 ⟨i / 4, by omega⟩ ⟨i % 4, by omega⟩
  rw [f1, f2] at h
  simpa [show 4 * (i.val / 4) + i.val % 4 = i.val by omega] using h

/-- **C134.** With one known block and lines of `2 ^ m` entries, everything but the last `m` bits of each of the first 16 bytes of the
key is seen. -/
theorem C134_bits (T : Target) (fuel depth m : Nat) (hf : 65 ≤ fuel) (hd : 8 ≤ depth) (k k' : List U8) (hk : ValidKey k)
    (hk' : ValidKey k') (obj obj' v v' : Val)
    (hi : call T crate fuel depth .aes_AES_init [encAES .new, bytes k] = .ok (v, [obj]))
    (hi' : call T crate fuel depth .aes_AES_init [encAES .new, bytes k'] = .ok (v', [obj'])) (p : Vector U8 16)
    (h : lines (2 ^ m) (callT T crate fuel depth .aes_AES_encrypt [obj, bytes p.toList]).1 =
      lines (2 ^ m) (callT T crate fuel depth .aes_AES_encrypt [obj', bytes p.toList]).1) (i : Fin 16) :
    k.getD i 0 >>> m = k'.getD i 0 >>> m := by
  have h := C134_lines T fuel depth (2 ^ m) hf hd k k' hk hk' obj obj' v v' hi hi' p p h i
  have e : (p[i] ^^^ k.getD i 0) >>> m = (p[i] ^^^ k'.getD i 0) >>> m := by
    apply BitVec.eq_of_toNat_eq
    rw [BitVec.toNat_ushiftRight, BitVec.toNat_ushiftRight, Nat.shiftRight_eq_div_pow, Nat.shiftRight_eq_div_pow]
    exact h
  rw [BitVec.ushiftRight_xor_distrib, BitVec.ushiftRight_xor_distrib] at e
  have e := congrArg (p[i] >>> m ^^^ ·) e
  simpa only [← BitVec.xor_assoc, BitVec.xor_self, BitVec.zero_xor] using e

/-- The words that were added to a block. -/
theorem added_words {s : Block} {w w' : List U32} (hw : w.length = 4) (hw' : w'.length = 4)
    (h : add_round_key s w = add_round_key s w') (c : Nat) (hc : c < 4) :
    wordByte (w.getD c 0) = wordByte (w'.getD c 0) := by
  have h := congrArg abs h
  rw [add_key_ok s w (fun j => wordByte (w.getD j 0)) 0 (by omega) (fun c hc => by simp [show c < w.length by omega]),
    add_key_ok s w' (fun j => wordByte (w'.getD j 0)) 0 (by omega) (fun c hc => by simp [show c < w'.length by omega])] at h
  funext r
  have e := congrFun (congrFun h r) ⟨c, hc⟩
  simp only [Spec.Aes.addRoundKey, Nat.mul_zero, Nat.zero_add] at e
  exact (BitVec.xor_right_inj (abs s r ⟨c, hc⟩)).1 e

/-- Keys with the same first eight words, or as many as the key has. -/
theorem same_key {k k' : List U8} (hk : ValidKey k) (hl : k.length = k'.length)
    (h : ∀ j < 8, Spec.Aes.keyWord (k.length / 4) k j = Spec.Aes.keyWord (k'.length / 4) k' j) : k = k' := by
  have h8 : k.length / 4 ≤ 8 ∧ k.length = 4 * (k.length / 4) := by rcases hk with h | h | h <;> omega
  have a1 := (KeySchedule.at_zero (k.length / 4) k h8.2 (Spec.Aes.keyWord (k.length / 4) k)).1 fun j _ => by rw [Nat.zero_add]
  have a2 := (KeySchedule.at_zero (k.length / 4) k' (by omega) (Spec.Aes.keyWord (k.length / 4) k)).1 fun j hj => by
    rw [Nat.zero_add, h j (by omega), hl]
  exact a1.trans a2.symm

/-- **C134.** Whoever sees the indices of a single encryption of a known block knows the key, without having seen `init`. -/
theorem C134_key (T : Target) (fuel depth : Nat) (hf : 65 ≤ fuel) (hd : 8 ≤ depth) (k k' : List U8) (hk : ValidKey k)
    (hk' : ValidKey k') (obj obj' v v' : Val)
    (hi : call T crate fuel depth .aes_AES_init [encAES .new, bytes k] = .ok (v, [obj]))
    (hi' : call T crate fuel depth .aes_AES_init [encAES .new, bytes k'] = .ok (v', [obj'])) (p : Vector U8 16)
    (h : (callT T crate fuel depth .aes_AES_encrypt [obj, bytes p.toList]).1 =
      (callT T crate fuel depth .aes_AES_encrypt [obj', bytes p.toList]).1) : k = k' := by
  obtain ⟨F, rfl⟩ := Nat.exists_eq_add_of_le' hf
  obtain ⟨d, rfl⟩ := Nat.exists_eq_add_of_le' hd
  obtain ⟨a, e, -, hc, ws, hw, hs⟩ := Aes.init_valid T .new k hk
  obtain ⟨a', e', -, hc', ws', hw', hs'⟩ := Aes.init_valid T .new k' hk'
  rw [src_AES_init T F (d + 5), e] at hi
  rw [src_AES_init T F (d + 5), e'] at hi'
  obtain rfl : encAES a = obj := by
    exact (List.cons.inj (Prod.mk.inj (Except.ok.inj hi)).2).1
  obtain rfl : encAES a' = obj' := by
    exact (List.cons.inj (Prod.mk.inj (Except.ok.inj hi')).2).1
  have l1 : ws.length = 4 * (k.length / 4 + 6 + 1) := by rw [hs.1, hc]
  have l2 : ws'.length = 4 * (k'.length / 4 + 6 + 1) := by rw [hs'.1, hc']
  have n1 : k.length / 4 ≤ 8 := by rcases hk with h | h | h <;> omega
  have n2 : k'.length / 4 ≤ 8 := by rcases hk' with h | h | h <;> omega
  obtain ⟨nr, ks⟩ := a
  obtain ⟨nr', ks'⟩ := a'
  cases hw
  cases hw'
  cases hc
  cases hc'
  obtain ⟨s2, hs2⟩ : ∃ s2, sub_bytes encLookup (add_round_key (to_block p) (ws.take 4)) = .ok s2 := ⟨_, sub_bytes_pure encLookup _ (vidx_256 SBOX) _⟩
  obtain ⟨s2', hs2'⟩ : ∃ s2, sub_bytes encLookup (add_round_key (to_block p) (ws'.take 4)) = .ok s2 := ⟨_, sub_bytes_pure encLookup _ (vidx_256 SBOX) _⟩
  obtain ⟨t, ht⟩ := trace_encrypt2 T F (d + 3) (k.length / 4 + 6) ws p (by omega) (by omega) (by omega) _ s2 rfl hs2
  obtain ⟨t', ht'⟩ := trace_encrypt2 T F (d + 3) (k'.length / 4 + 6) ws' p (by omega) (by omega) (by omega) _ s2' rfl hs2'
  rw [ht, ht', same_trace T (F + 65) (d + 3 + 4) .aes_AESEncrypt_add_round_key (by decide)
      (.cons (low_block (to_block p) (to_block p)) (.cons (low_words (by simp; omega : (ws.take 4).length = (ws'.take 4).length)) .nil))] at h
  simp only [List.cons.injEq, true_and, List.append_cancel_left_eq, Event.count.injEq] at h
  obtain ⟨hn, h⟩ := h
  have e1 := block_inj h
  have w1 := added_words (by simp; omega) (by simp; omega) e1
  rw [e1] at h hs2
  obtain rfl : s2 = s2' := by
    rw [hs2] at hs2'
    exact Except.ok.inj hs2'
  rw [same_trace T (F + 65) (d + 3 + 4) .aes_AESEncrypt_add_round_key (by decide)
      (.cons (low_block (mix_columns encMixColumn (encShiftRows s2)) (mix_columns encMixColumn (encShiftRows s2)))
        (.cons (low_words (by simp; omega : ((ws.drop 4).take 4).length = ((ws'.drop 4).take 4).length)) .nil))] at h
  simp only [List.cons.injEq, true_and, List.append_cancel_left_eq] at h
  have w2 := added_words (by simp; omega) (by simp; omega) (block_inj h)
  have hl : k.length = k'.length := by rcases hk with h | h | h <;> rcases hk' with h' | h' | h' <;> omega
  refine same_key hk hl fun j hj => ?_
  have ew : wordByte (ws.getD j 0) = wordByte (ws'.getD j 0) := by
    by_cases h4 : j < 4
    · simpa [List.getElem?_take, h4] using w1 j h4
    · simpa [List.getElem?_take, List.getElem?_drop, show j - 4 < 4 by omega, show 4 + (j - 4) = j by omega] using w2 (j - 4) (by omega)
  rw [← hs.2 j (by omega), ← hs'.2 j (by omega)]
  simpa [show j < ws.length by omega, show j < ws'.length by omega] using ew

theorem blockIdx_length (s : Block) : (blockIdx s).length = 16 := by
  rw [blockIdx, flatMap_length (n := 4) (fun c => by simp)]
  simp

theorem blockIdx_inj {s t : Block} (h : blockIdx s = blockIdx t) : s = t := by
  apply Vector.toList_inj.1
  refine flatMap_inj' (n := 4) (f := fun c : Vector U8 4 => c.toList.map (·.toNat)) (fun c => by simp) (fun c c' e => ?_) (by simp)
    (r := []) (r' := []) (by simpa [blockIdx] using h)
  exact Vector.toList_inj.1 ((List.map_inj_right fun _ _ => toNat_inj8).1 e)

theorem decMix_inj {a b : Block} (h : mix_columns decMixColumn a = mix_columns decMixColumn b) : a = b := by
  apply abs_inj
  rw [← mix_invMix (abs a), ← mix_invMix (abs b), ← mix_dec, ← mix_dec, h]

/-- The first two of several blocks. -/
theorem two_blocks {n n' : Nat} (hn : 2 ≤ n) (hn' : 2 ≤ n') {f g : Nat → Block}
    (h : (List.range n).flatMap (fun i => blockIdx (f i)) = (List.range n').flatMap (fun i => blockIdx (g i))) :
    n = n' ∧ f 0 = g 0 ∧ f 1 = g 1 := by
  have hl := congrArg List.length h
  rw [flatMap_length (n := 16) (fun _ => blockIdx_length _), flatMap_length (n := 16) (fun _ => blockIdx_length _), List.length_range,
    List.length_range] at hl
  obtain rfl : n = n' := by omega
  have h := (flatMap_inj (xs := List.range n) (f := fun i => blockIdx (f i)) (g := fun i => blockIdx (g i)) (r := []) (r' := [])
    (fun i _ => by rw [blockIdx_length, blockIdx_length]) (by rw [h])).1
  exact ⟨rfl, blockIdx_inj (h 0 (by simp; omega)), blockIdx_inj (h 1 (by simp; omega))⟩

/-- The state of `decrypt` after its first round. -/
theorem dec_round (ks : List U32) (nr : Nat) (hl : ks.length = 4 * (nr + 1)) (hr : 2 ≤ nr) (s : Block) :
    ((List.range' 1 (nr - 1)).reverse.take 1).foldl (fun s r => roundOr (AES.decRound ks r s) s) s =
      mix_columns decMixColumn (add_round_key ((decShiftRows s).map fun c => c.map fun b => INV_SBOX[b.toNat]'b.isLt)
        ((ks.drop (4 * (nr - 1))).take 4)) := by
  obtain ⟨m, rfl⟩ := Nat.exists_eq_add_of_le' hr
  have e : (List.range' 1 (m + 2 - 1)).reverse.take 1 = [m + 1] := by
    rw [show m + 2 - 1 = m + 1 by omega, List.range'_concat]
    simp
    omega
  have hs : slice ks ((m + 1) * NB) ((m + 1 + 1) * NB) = .ok ((ks.drop (4 * (m + 1))).take 4) := by
    simp only [slice, NB, hl]
    rw [if_pos (by omega), List.drop_take]
    congr 2
    · omega
    · congr 1; omega
  rw [e, List.foldl_cons, List.foldl_nil, AES.decRound, sub_bytes_pure decLookup _ (vidx_256 INV_SBOX)]
  simp only [ok_bind, hs]
  rfl

/-- **C134.** Whoever sees the indices of a single decryption of a known block knows the key, without having seen `init`. -/
theorem C134_decrypt_key (T : Target) (fuel depth : Nat) (hf : 65 ≤ fuel) (hd : 8 ≤ depth) (k k' : List U8) (hk : ValidKey k)
    (hk' : ValidKey k') (obj obj' v v' : Val)
    (hi : call T crate fuel depth .aes_AES_init [encAES .new, bytes k] = .ok (v, [obj]))
    (hi' : call T crate fuel depth .aes_AES_init [encAES .new, bytes k'] = .ok (v', [obj'])) (p : Vector U8 16)
    (h : (callT T crate fuel depth .aes_AES_decrypt [obj, bytes p.toList]).1 =
      (callT T crate fuel depth .aes_AES_decrypt [obj', bytes p.toList]).1) : k = k' := by
  obtain ⟨F, rfl⟩ := Nat.exists_eq_add_of_le' hf
  obtain ⟨d, rfl⟩ := Nat.exists_eq_add_of_le' hd
  obtain ⟨a, e, -, hc, ws, hw, hs⟩ := Aes.init_valid T .new k hk
  obtain ⟨a', e', -, hc', ws', hw', hs'⟩ := Aes.init_valid T .new k' hk'
  rw [src_AES_init T F (d + 5), e] at hi
  rw [src_AES_init T F (d + 5), e'] at hi'
  obtain rfl : encAES a = obj := by
    exact (List.cons.inj (Prod.mk.inj (Except.ok.inj hi)).2).1
  obtain rfl : encAES a' = obj' := by
    exact (List.cons.inj (Prod.mk.inj (Except.ok.inj hi')).2).1
  have l1 : ws.length = 4 * (k.length / 4 + 6 + 1) := by rw [hs.1, hc]
  have l2 : ws'.length = 4 * (k'.length / 4 + 6 + 1) := by rw [hs'.1, hc']
  have n1 : 4 ≤ k.length / 4 ∧ k.length / 4 ≤ 8 ∧ k.length = 4 * (k.length / 4) := by rcases hk with h | h | h <;> omega
  have n2 : 4 ≤ k'.length / 4 ∧ k'.length / 4 ≤ 8 ∧ k'.length = 4 * (k'.length / 4) := by rcases hk' with h | h | h <;> omega
  obtain ⟨nr, ks⟩ := a
  obtain ⟨nr', ks'⟩ := a'
  cases hw
  cases hw'
  cases hc
  cases hc'
  have h := congrArg (fun t => lookups .aes_AESDecrypt_lookup_sbox (t ++ [])) h
  simp only [] at h
  erw [decrypt_lookups T F (d + 3) (k.length / 4 + 6) ws p l1 (by omega) (by omega),
    decrypt_lookups T F (d + 3) (k'.length / 4 + 6) ws' p l2 (by omega) (by omega)] at h
  obtain ⟨hn, e0, e1⟩ := two_blocks (by omega) (by omega) (List.append_cancel_right h)
  have hl : k.length / 4 = k'.length / 4 := by omega
  rw [dec_round ws _ l1 (by omega), dec_round ws' _ l2 (by omega)] at e1
  have e0 : add_round_key (to_block p) (ws.drop ((k.length / 4 + 6) * 4)) = add_round_key (to_block p) (ws'.drop ((k'.length / 4 + 6) * 4)) :=
    decShiftRows_inj e0
  have w1 := added_words (by simp; omega) (by simp; omega) e0
  rw [e0] at e1
  have w2 := added_words (by simp; omega) (by simp; omega) (decMix_inj (decShiftRows_inj e1))
  rw [← hl] at w1 w2 l2
  rw [← hl] at hs'
  generalize k.length / 4 = nk at *
  have hwd (j : Nat) (hj : j < nk) : Spec.Aes.keyWord nk k (4 * (nk + 5) + j) = Spec.Aes.keyWord nk k' (4 * (nk + 5) + j) := by
    rw [← hs.2 (4 * (nk + 5) + j) (by omega), ← hs'.2 (4 * (nk + 5) + j) (by omega)]
    by_cases h4 : j < 4
    · have := w2 j h4
      simpa [List.getElem?_take, h4, List.getElem?_drop, show 4 * (nk + 5) + j < ws.length by omega,
        show 4 * (nk + 5) + j < ws'.length by omega] using this
    · have := w1 (j - 4) (by omega)
      rw [List.getD_eq_getElem?_getD, List.getD_eq_getElem?_getD, List.getElem?_drop, List.getElem?_drop,
        show (nk + 6) * 4 + (j - 4) = 4 * (nk + 5) + j by omega] at this
      simpa [show 4 * (nk + 5) + j < ws.length by omega, show 4 * (nk + 5) + j < ws'.length by omega] using this
  have a1 := (KeySchedule.at_zero nk k (by omega) _).1 ((KeySchedule.at_backAll nk (by omega) k (4 * (nk + 5))
    (fun j => Spec.Aes.keyWord nk k (4 * (nk + 5) + j))).1 fun _ _ => rfl)
  have a2 := (KeySchedule.at_zero nk k' (by omega) _).1 ((KeySchedule.at_backAll nk (by omega) k' (4 * (nk + 5))
    (fun j => Spec.Aes.keyWord nk k (4 * (nk + 5) + j))).1 fun j hj => hwd j hj)
  exact a1.trans a2.symm

/-- `init` with two keys whose first bytes are 0 and 64 does give objects, and with lines of 64 entries, as in a cache with lines of
64 bytes, their encryptions look different, whatever the block. -/
example (T : Target) (p : Vector U8 16) : ∃ v v' obj obj',
    call T crate 65 8 .aes_AES_init [encAES .new, bytes (List.replicate 32 0)] = .ok (v, [obj]) ∧
    call T crate 65 8 .aes_AES_init [encAES .new, bytes (64 :: List.replicate 31 0)] = .ok (v', [obj']) ∧
    lines 64 (callT T crate 65 8 .aes_AES_encrypt [obj, bytes p.toList]).1 ≠
      lines 64 (callT T crate 65 8 .aes_AES_encrypt [obj', bytes p.toList]).1 := by
  obtain ⟨a, e, -⟩ := Aes.init_valid T .new (List.replicate 32 0) (by simp)
  obtain ⟨a', e', -⟩ := Aes.init_valid T .new (64 :: List.replicate 31 0) (by simp)
  have hi := src_AES_init T 0 5 .new (List.replicate 32 0)
  have hi' := src_AES_init T 0 5 .new (64 :: List.replicate 31 0)
  rw [e] at hi
  rw [e'] at hi'
  refine ⟨_, _, _, _, hi, hi', fun h => ?_⟩
  have := C134_bits T 65 8 6 (by omega) (by omega) _ _ (.inr (.inr rfl)) (.inr (.inr rfl)) _ _ _ _ hi hi' p h 0
  exact absurd this (by decide)

/-- Two keys of 16 bytes that differ in the last bit: encryptions look different, and decryptions do, whatever the block. -/
example (T : Target) (p : Vector U8 16) : ∃ v v' obj obj',
    call T crate 65 8 .aes_AES_init [encAES .new, bytes (List.replicate 16 0)] = .ok (v, [obj]) ∧
    call T crate 65 8 .aes_AES_init [encAES .new, bytes (List.replicate 15 0 ++ [1])] = .ok (v', [obj']) ∧
    (callT T crate 65 8 .aes_AES_encrypt [obj, bytes p.toList]).1 ≠ (callT T crate 65 8 .aes_AES_encrypt [obj', bytes p.toList]).1 ∧
    (callT T crate 65 8 .aes_AES_decrypt [obj, bytes p.toList]).1 ≠ (callT T crate 65 8 .aes_AES_decrypt [obj', bytes p.toList]).1 := by
  obtain ⟨a, e, -⟩ := Aes.init_valid T .new (List.replicate 16 0) (by simp)
  obtain ⟨a', e', -⟩ := Aes.init_valid T .new (List.replicate 15 0 ++ [1]) (by simp)
  have hi := src_AES_init T 0 5 .new (List.replicate 16 0)
  have hi' := src_AES_init T 0 5 .new (List.replicate 15 0 ++ [1])
  rw [e] at hi
  rw [e'] at hi'
  exact ⟨_, _, _, _, hi, hi',
    fun h => absurd (C134_key T 65 8 (by omega) (by omega) _ _ (.inl rfl) (.inl rfl) _ _ _ _ hi hi' p h) (by decide),
    fun h => absurd (C134_decrypt_key T 65 8 (by omega) (by omega) _ _ (.inl rfl) (.inl rfl) _ _ _ _ hi hi' p h) (by decide)⟩

end Verif.Props.CacheLines
