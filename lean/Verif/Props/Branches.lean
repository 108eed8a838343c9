import Verif.Source.TraceTests
import Verif.Props.CacheLines
import Verif.Props.AesPoly

/-!
C136: what an observer of encryptions learns who sees nothing of the tables, but only the outcomes of tests, as from the time that
branches take.
-/

set_option linter.constructorNameAsVariable false

namespace Verif.Props.Branches
open Verif Verif.Aes Verif.Source Verif.Props.ConstantTime Verif.Props.SideChannel Verif.Props.CacheLines
open Spec.Aes (sbox)

/-- The two highest bits of a byte are what the tests show. -/
theorem two_bits : ∀ b : U8, b >>> 6 = (if low b then 0 else 2#8) + (if low (double b) then 0 else 1#8) := by decide +kernel

theorem columnTests_length (c : Vector U8 4) : (columnTests c).length = 56 := by
  simp [columnTests]

theorem columnTests_bits {c c' : Vector U8 4} (h : columnTests c = columnTests c') (r : Fin 4) : c[r] >>> 6 = c'[r] >>> 6 := by
  simp only [columnTests, List.cons_append, List.nil_append, List.cons.injEq, true_and, and_true] at h
  rw [two_bits c[r], two_bits c'[r]]
  match r with
  | 0 => simp only [Fin.getElem_fin]; simp [h]
  | 1 => simp only [Fin.getElem_fin]; simp [h]
  | 2 => simp only [Fin.getElem_fin]; simp [h]
  | 3 => simp only [Fin.getElem_fin]; simp [h]

theorem blockTests_bits {s t : Block} {r r' : List Bool} (h : s.toList.flatMap columnTests ++ r = t.toList.flatMap columnTests ++ r') (i c : Fin 4) :
    Aes.abs s i c >>> 6 = Aes.abs t i c >>> 6 := by
  have key : ∀ {xs ys : List (Vector U8 4)} {r r' : List Bool}, xs.length = ys.length →
      xs.flatMap columnTests ++ r = ys.flatMap columnTests ++ r' → List.Forall₂ (fun a b => columnTests a = columnTests b) xs ys := by
    intro xs
    induction xs with
    | nil => intro ys r r' hl _; obtain rfl := List.length_eq_zero_iff.1 hl.symm; exact .nil
    | cons x xs ih =>
      intro ys r r' hl h
      rcases ys with _ | ⟨y, ys⟩
      · cases hl
      · rw [List.flatMap_cons, List.flatMap_cons, List.append_assoc, List.append_assoc] at h
        obtain ⟨h1, h2⟩ := append_same (by rw [columnTests_length, columnTests_length]) h
        exact .cons h1 (ih (by simpa using hl) h2)
  have h := (List.forall₂_iff_get.1 (key (by simp) h)).2 c.val (by simp) (by simp)
  simpa [Aes.abs] using columnTests_bits h i

/-- **C136.** Two AES objects are given keys, and each encrypts a block. If the outcomes of all tests are the same in both encryptions, then the two
highest bits of the S-box's value at block plus key are, for each of the 16 bytes. -/
theorem C136_bits (T : Target) (fuel depth : Nat) (hf : 65 ≤ fuel) (hd : 8 ≤ depth) (k k' : List U8) (hk : ValidKey k)
    (hk' : ValidKey k') (obj obj' v v' : Val)
    (hi : call T crate fuel depth .aes_AES_init [encAES .new, bytes k] = .ok (v, [obj]))
    (hi' : call T crate fuel depth .aes_AES_init [encAES .new, bytes k'] = .ok (v', [obj'])) (p q : Vector U8 16)
    (h : tests (callT T crate fuel depth .aes_AES_encrypt [obj, bytes p.toList]).1 =
      tests (callT T crate fuel depth .aes_AES_encrypt [obj', bytes q.toList]).1) (i : Fin 16) :
    sbox (p[i] ^^^ k.getD i 0) >>> 6 = sbox (q[i] ^^^ k'.getD i 0) >>> 6 := by
  obtain ⟨F, rfl⟩ := Nat.exists_eq_add_of_le' hf
  obtain ⟨d, rfl⟩ := Nat.exists_eq_add_of_le' hd
  obtain ⟨a, e, -, hc, ws, hw, hs⟩ := Aes.init_valid T .new k hk
  obtain ⟨a', e', -, hc', ws', hw', hs'⟩ := Aes.init_valid T .new k' hk'
  rw [src_AES_init T F (d + 5), e] at hi
  rw [src_AES_init T F (d + 5), e'] at hi'
  obtain rfl : encAES a = obj := by
    exact (List.cons.inj (Prod.mk.inj (Except.ok.inj hi)).2).1
  obtain rfl : encAES a' = obj' := by
    exact (List.cons.inj (Prod.mk.inj (Except.ok.inj hi')).2).1
  have f1 := first_state hs hk p
  have f2 := first_state hs' hk' q
  have l1 : ws.length = 4 * (k.length / 4 + 6 + 1) := by rw [hs.1, hc]
  have l2 : ws'.length = 4 * (k'.length / 4 + 6 + 1) := by rw [hs'.1, hc']
  have n1 : k.length / 4 ≤ 8 := by rcases hk with h | h | h <;> omega
  have n2 : k'.length / 4 ≤ 8 := by rcases hk' with h | h | h <;> omega
  obtain ⟨nr, ks⟩ := a
  obtain ⟨nr', ks'⟩ := a'
  cases hw
  cases hw'
  cases hc
  cases hc'
  obtain ⟨s2, hs2, g1⟩ := sub_bytes_enc (add_round_key (to_block p) (ws.take 4))
  obtain ⟨s2', hs2', g2⟩ := sub_bytes_enc (add_round_key (to_block q) (ws'.take 4))
  obtain ⟨t, ht⟩ := trace_encrypt2 T F (d + 3) (k.length / 4 + 6) ws p (by omega) (by omega) (by omega) _ s2 rfl hs2
  obtain ⟨t', ht'⟩ := trace_encrypt2 T F (d + 3) (k'.length / 4 + 6) ws' q (by omega) (by omega) (by omega) _ s2' rfl hs2'
  have hcol (cs : List (Vector U8 4)) : tests (cs.flatMap colTrace) = [] := by
    rw [tests_flatMap, List.flatMap_eq_nil_iff]
    intro c _
    show tests (c.toList.flatMap cellTrace) = []
    rw [tests_flatMap, List.flatMap_eq_nil_iff]
    intro b _
    rfl
  rw [ht, ht', same_trace T (F + 65) (d + 3 + 4) .aes_to_block (by decide)
      (.cons (low_bytes (by simp : p.toList.length = q.toList.length)) .nil),
    same_trace T (F + 65) (d + 3 + 4) .aes_AESEncrypt_add_round_key (by decide)
      (.cons (low_block (to_block p) (to_block q)) (.cons (low_words (by simp; omega : (ws.take 4).length = (ws'.take 4).length)) .nil)),
    same_trace T (F + 65) (d + 3 + 4) .aes_AESEncrypt_shift_rows (by decide) (.cons (low_block s2 s2') .nil)] at h
  simp only [tests, tests_append, hcol, List.nil_append, List.cons.injEq, true_and, List.append_cancel_left_eq] at h
  rw [tests_mix_columns T F (d + 3), tests_mix_columns T F (d + 3)] at h
  have r := blockTests_bits h ⟨i % 4, by omega⟩ (⟨i / 4, by omega⟩ - ⟨i % 4, by omega⟩)
  rw [shift_enc, shift_enc, g1, g2, Spec.Aes.shiftRows, Spec.Aes.shiftRows, Spec.Aes.subBytes, Spec.Aes.subBytes, f1, f2] at r
  have ec : ∀ a b : Fin 4, a - b + b = a := by decide
  simpa only [Fin.getElem_fin, ec, show 4 * (i.val / 4) + i.val % 4 = i.val by omega] using r

/-- No two shifts of the S-box have the same two highest bits everywhere. -/
theorem sbox_shift : ∀ x : U8, x ≠ 0 → ∃ y : U8, (SBOX[y.toNat]'y.isLt) >>> 6 ≠ (SBOX[(y ^^^ x).toNat]'(y ^^^ x).isLt) >>> 6 := by
  decide +kernel

theorem shift_known {a b : U8} (h : ∀ x : U8, sbox (x ^^^ a) >>> 6 = sbox (x ^^^ b) >>> 6) : a = b := by
  by_contra hne
  obtain ⟨y, hy⟩ := sbox_shift (a ^^^ b) (fun h0 => hne (BitVec.xor_eq_zero_iff.1 h0))
  rw [SBOX_eq, SBOX_eq] at hy
  apply hy
  have := h (y ^^^ a)
  rwa [BitVec.xor_assoc, BitVec.xor_self, BitVec.xor_zero, BitVec.xor_assoc] at this

/-- **C136.** Whoever sees the outcomes of tests in the encryptions of the 256 blocks that consist of equal bytes knows the first 16 bytes of the key: two keys
for which all of them look the same agree there. -/
theorem C136_key (T : Target) (fuel depth : Nat) (hf : 65 ≤ fuel) (hd : 8 ≤ depth) (k k' : List U8) (hk : ValidKey k)
    (hk' : ValidKey k') (obj obj' v v' : Val)
    (hi : call T crate fuel depth .aes_AES_init [encAES .new, bytes k] = .ok (v, [obj]))
    (hi' : call T crate fuel depth .aes_AES_init [encAES .new, bytes k'] = .ok (v', [obj']))
    (h : ∀ x : U8, tests (callT T crate fuel depth .aes_AES_encrypt [obj, bytes (List.replicate 16 x)]).1 =
      tests (callT T crate fuel depth .aes_AES_encrypt [obj', bytes (List.replicate 16 x)]).1) : k.take 16 = k'.take 16 := by
  have h1 : 16 ≤ k.length := by rcases hk with h | h | h <;> omega
  have h2 : 16 ≤ k'.length := by rcases hk' with h | h | h <;> omega
  apply List.ext_getElem (by simp; omega)
  intro i hi1 hi2
  have hi16 : i < 16 := by simp at hi1; omega
  have := shift_known fun x => by
    have := C136_bits T fuel depth hf hd k k' hk hk' obj obj' v v' hi hi' (Vector.replicate 16 x) (Vector.replicate 16 x)
      (by simpa using h x) ⟨i, hi16⟩
    simpa using this
  simpa [show i < k.length by omega, show i < k'.length by omega] using this

/-- `init` with keys that differ in one bit does give objects, and there is a block of equal bytes whose encryptions differ in the outcome of a test. -/
example (T : Target) : ∃ v v' obj obj',
    call T crate 65 8 .aes_AES_init [encAES .new, bytes (List.replicate 16 0)] = .ok (v, [obj]) ∧
    call T crate 65 8 .aes_AES_init [encAES .new, bytes (List.replicate 15 0 ++ [1])] = .ok (v', [obj']) ∧
    ∃ x : U8, tests (callT T crate 65 8 .aes_AES_encrypt [obj, bytes (List.replicate 16 x)]).1 ≠
      tests (callT T crate 65 8 .aes_AES_encrypt [obj', bytes (List.replicate 16 x)]).1 := by
  obtain ⟨a, e, -⟩ := Aes.init_valid T .new (List.replicate 16 0) (by simp)
  obtain ⟨a', e', -⟩ := Aes.init_valid T .new (List.replicate 15 0 ++ [1]) (by simp)
  have hi := src_AES_init T 0 5 .new (List.replicate 16 0)
  have hi' := src_AES_init T 0 5 .new (List.replicate 15 0 ++ [1])
  rw [e] at hi
  rw [e'] at hi'
  refine ⟨_, _, _, _, hi, hi', ?_⟩
  by_contra hne
  have := C136_key T 65 8 (by omega) (by omega) _ _ (.inl rfl) (.inl rfl) _ _ _ _ hi hi' fun x => by
    by_contra h
    exact hne ⟨x, h⟩
  exact absurd this (by decide)

end Verif.Props.Branches
