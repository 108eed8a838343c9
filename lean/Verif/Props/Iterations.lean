import Verif.Props.Pbkdf2
import Verif.Props.HmacCollision
import Verif.Props.Work
import Verif.Spec.Iterations

/-! Property C122: keys derived with one salt and different iteration counts are related. -/

namespace Verif.Props.Iterations
open Verif Verif.Pbkdf2 Verif.Props.Hmac Verif.Props.HmacCollision Spec.Sha256 Spec.Pbkdf2

theorem hmac_length (P m : List U8) : (Spec.hmacSha256 P m).length = 32 := by
  simp [Spec.hmacSha256, Spec.hmac]

theorem U_len (P S : List U8) (i j : Nat) : (U Spec.hmacSha256 P S i j).length = 32 := by
  cases j <;> rw [U] <;> exact hmac_length _ _

theorem F_len (P S : List U8) (c i : Nat) : (F Spec.hmacSha256 P S c i).length = 32 :=
  foldl_xor_length _ (fun j => U Spec.hmacSha256 P S i (j + 1)) (fun j => U_len P S i (j + 1)) _ (U_len ..)

theorem F_succ (P S : List U8) (c i : Nat) (hc : 1 ≤ c) :
    F Spec.hmacSha256 P S (c + 1) i = Spec.xorBytes (F Spec.hmacSha256 P S c i) (U Spec.hmacSha256 P S i c) := by
  obtain ⟨d, rfl⟩ := Nat.exists_eq_add_of_le' hc
  simp only [F, Nat.add_sub_cancel, List.range_succ, List.foldl_append, List.foldl_cons, List.foldl_nil]

theorem xor_cancel (a b : List U8) (h : a.length = b.length) : Spec.xorBytes a (Spec.xorBytes a b) = b := by
  induction a generalizing b with
  | nil => cases b <;> simp_all [Spec.xorBytes]
  | cons x a ih =>
    match b, h with
    | y :: b, h =>
      have := ih b (by simpa using h)
      simp only [Spec.xorBytes, List.zipWith_cons_cons, List.cons.injEq] at this ⊢
      exact ⟨by rw [← BitVec.xor_assoc, BitVec.xor_self, BitVec.zero_xor], this⟩

theorem stream_len (P S : List U8) (c l : Nat) : (stream Spec.hmacSha256 P S c l).length = 32 * l := by
  induction l with
  | zero => rfl
  | succ l ih => rw [stream_succ, List.length_append, ih, F_len]; omega

theorem part_pbkdf2 (P S : List U8) (c n i : Nat) (hi : 32 * (i + 1) ≤ n) :
    part i (pbkdf2HmacSha256 P S c n) = F Spec.hmacSha256 P S c (i + 1) := by
  obtain ⟨d, hd⟩ : ∃ d, (n + 31) / 32 = i + 1 + d := ⟨(n + 31) / 32 - (i + 1), by omega⟩
  have hs : stream Spec.hmacSha256 P S c (i + 1 + d) = stream Spec.hmacSha256 P S c (i + 1) ++
      ((List.range d).map (i + 1 + ·)).flatMap fun i => F Spec.hmacSha256 P S c (i + 1) := by
    rw [stream, List.range_add, List.flatMap_append]
    rfl
  rw [part, pbkdf2HmacSha256, pbkdf2, hd, List.drop_take, List.take_take, Nat.min_eq_left (by omega), hs, stream_succ,
    List.append_assoc, List.drop_append_of_le_length (by rw [stream_len]), List.drop_eq_nil_of_le (by rw [stream_len]),
    List.nil_append, List.take_append_of_le_length (by rw [F_len]), List.take_of_length_le (by rw [F_len])]

/-- The difference of two derived keys is one of the values that are summed up. -/
theorem differ (P S : List U8) (c n i : Nat) (hc : 1 ≤ c) (hi : 32 * (i + 1) ≤ n) :
    Spec.xorBytes (part i (pbkdf2HmacSha256 P S c n)) (part i (pbkdf2HmacSha256 P S (c + 1) n)) =
      U Spec.hmacSha256 P S (i + 1) c := by
  rw [part_pbkdf2 _ _ _ _ _ hi, part_pbkdf2 _ _ _ _ _ hi, F_succ _ _ _ _ hc, xor_cancel _ _ (by rw [F_len, U_len])]

theorem U_again (P S : List U8) (i c d : Nat) : U Spec.hmacSha256 P S i (c + d) = again P d (U Spec.hmacSha256 P S i c) := by
  induction d with
  | zero => rfl
  | succ d ih => rw [← Nat.add_assoc, U, ih, again]

/-- Only the padded key of HMAC matters. -/
theorem same_key (P P' : List U8) (h : Spec.hmacKey Spec.Sha256.sha256 P = Spec.hmacKey Spec.Sha256.sha256 P') :
    pbkdf2HmacSha256 P = pbkdf2HmacSha256 P' := by
  have hm (m : List U8) : Spec.hmacSha256 P m = Spec.hmacSha256 P' m := by
    simp only [Spec.hmacSha256, Spec.hmac, h]
  have hU (S : List U8) (i j : Nat) : U Spec.hmacSha256 P S i j = U Spec.hmacSha256 P' S i j := by
    induction j with
    | zero => rw [U, U, hm]
    | succ j ih => rw [U, U, hm, ih]
  funext S c n
  simp only [pbkdf2HmacSha256, pbkdf2, stream, F, hU]

/-- **C122.** Four keys that `pbkdf2_sha256` derives from one password and one salt with the iteration counts `c`, `c + 1`, `c + d` and
`c + d + 1`, the buffers being of any lengths: each whole part of 32 bytes of the first two keys combined by exclusive or, put through
HMAC with the password `d` times, is the same part of the last two keys combined. -/
theorem C122_related (T : Target) (P S : List U8) (c d : Nat) (hc : 1 ≤ c) (out0 out1 out2 out3 k0 k1 k2 k3 : List U8)
    (hP : 8 * P.length < 2 ^ T.bits) (hS : 8 * (64 + S.length + 4) < 2 ^ T.bits)
    (hout : ∀ o ∈ [out0, out1, out2, out3], o.length ≤ T.isizeMax ∧ o.length ≤ (2 ^ 32 - 1) * 32)
    (h0 : pbkdf2_sha256 T P S c out0 = .ok k0) (h1 : pbkdf2_sha256 T P S (c + 1) out1 = .ok k1)
    (h2 : pbkdf2_sha256 T P S (c + d) out2 = .ok k2) (h3 : pbkdf2_sha256 T P S (c + d + 1) out3 = .ok k3)
    (i : Nat) (hi : ∀ o ∈ [out0, out1, out2, out3], 32 * (i + 1) ≤ o.length) :
    Spec.xorBytes (part i k2) (part i k3) = again P d (Spec.xorBytes (part i k0) (part i k1)) := by
  simp only [List.mem_cons, List.not_mem_nil, or_false, forall_eq_or_imp, forall_eq] at hout hi
  obtain ⟨o0, o1, o2, o3⟩ := hout
  obtain ⟨i0, i1, i2, i3⟩ := hi
  rw [Pbkdf2.C08_pbkdf2_correct T P S _ _ hc hP hS o0.1 o0.2] at h0
  rw [Pbkdf2.C08_pbkdf2_correct T P S _ _ (by omega) hP hS o1.1 o1.2] at h1
  rw [Pbkdf2.C08_pbkdf2_correct T P S _ _ (by omega) hP hS o2.1 o2.2] at h2
  rw [Pbkdf2.C08_pbkdf2_correct T P S _ _ (by omega) hP hS o3.1 o3.2] at h3
  cases h0; cases h1; cases h2; cases h3
  have e (c n m : Nat) (hn : 32 * (i + 1) ≤ n) (hm : 32 * (i + 1) ≤ m) :
      part i (pbkdf2HmacSha256 P S c n) = part i (pbkdf2HmacSha256 P S c m) := by
    rw [part_pbkdf2 _ _ _ _ _ hn, part_pbkdf2 _ _ _ _ _ hm]
  rw [e (c + 1) _ _ i1 i0, differ P S c _ i hc i0, e (c + d + 1) _ _ i3 i2, differ P S (c + d) _ i (by omega) i2, U_again]

/-- **C122.** So who has three keys derived with `c`, `c + 1` and `c + 2` iterations can test passwords with one HMAC in place of `c`
of them: the password passes the test, and each password that passes derives the same keys from all salts, or shows a collision of the
compression function of SHA-256. -/
theorem C122_test (T : Target) (P S : List U8) (c : Nat) (hc : 1 ≤ c) (out0 out1 out2 k0 k1 k2 : List U8)
    (hP : 8 * P.length < 2 ^ T.bits) (hS : 8 * (64 + S.length + 4) < 2 ^ T.bits)
    (hout : ∀ o ∈ [out0, out1, out2], o.length ≤ T.isizeMax ∧ o.length ≤ (2 ^ 32 - 1) * 32)
    (h0 : pbkdf2_sha256 T P S c out0 = .ok k0) (h1 : pbkdf2_sha256 T P S (c + 1) out1 = .ok k1)
    (h2 : pbkdf2_sha256 T P S (c + 2) out2 = .ok k2)
    (i : Nat) (hi : ∀ o ∈ [out0, out1, out2], 32 * (i + 1) ≤ o.length) :
    let u := Spec.xorBytes (part i k0) (part i k1)
    let u' := Spec.xorBytes (part i k1) (part i k2)
    macChunks T P [u] = .ok u' ∧
    ∀ guess : List U8, 8 * guess.length < 2 ^ T.bits → macChunks T guess [u] = .ok u' →
      (∀ (S' : List U8) (c' : Nat) (out : List U8), 1 ≤ c' → 8 * (64 + S'.length + 4) < 2 ^ T.bits → out.length ≤ T.isizeMax →
        out.length ≤ (2 ^ 32 - 1) * 32 → pbkdf2_sha256 T guess S' c' out = pbkdf2_sha256 T P S' c' out) ∨
      CollisionIn (innerText guess u) (innerText P u) ∨ CollisionIn (outerText guess u) (outerText P u) := by
  intro u u'
  have hT := T.two_pow_ge
  have hb : u.length ≤ 32 := by
    simp only [u, Spec.xorBytes, part, List.length_zipWith, List.length_take]
    omega
  simp only [List.mem_cons, List.not_mem_nil, or_false, forall_eq_or_imp, forall_eq] at hout hi
  have e : u' = Spec.hmacSha256 P u :=
    C122_related T P S c 1 hc out0 out1 out1 out2 k0 k1 k1 k2 hP hS (by simp; exact ⟨hout.1, hout.2.1, hout.2.2⟩) h0 h1 h1 h2 i
      (by simp; exact ⟨hi.1, hi.2.1, hi.2.2⟩)
  have hmac (key : List U8) (hk : 8 * key.length < 2 ^ T.bits) : macChunks T key [u] = .ok (Spec.hmacSha256 key u) := by
    rw [C06_hmac_correct T key [u] hk (by simp; omega)]
    simp
  refine ⟨by rw [hmac P hP, e], fun guess hg h => ?_⟩
  rw [hmac guess hg, e] at h
  rcases hmac_collision guess P u u (by omega) (by omega) (Except.ok.inj h) with h | h | h
  · refine .inl fun S' c' out hc' hS' o1 o2 => ?_
    rw [Pbkdf2.C08_pbkdf2_correct T guess S' c' out hc' hg hS' o1 o2, Pbkdf2.C08_pbkdf2_correct T P S' c' out hc' hP hS' o1 o2,
      same_key guess P h.1]
  · exact .inr (.inl h)
  · exact .inr (.inr h)

/-- One HMAC of one piece, counting compressions: the copies of the models with a counter (`Verif/Model/Counted.lean`). -/
def macCounted (T : Target) (key m : List U8) : Counted.C (List U8) := do
  let h ← Counted.hmacNew T key
  let h ← Counted.hmacUpdate T h m
  let (_, d) ← Counted.hmacDigest T h
  return d.toList

/-- **C122.** The test of a password takes 4 compressions, and those for hashing a password of more than 64 bytes. To derive a key
takes as many for each of the iterations (C61). -/
theorem C122_cost (T : Target) (guess u : List U8) (hu : u.length = 32) (S : List U8) (c : Nat) (out : List U8) (ho : out ≠ [])
    (hout : out.length ≤ T.isizeMax) :
    ∃ one more : Nat, (macCounted T guess u).run 0 = (macChunks T guess [u]).map (fun d => (d, one)) ∧
      one = 4 + (if 64 < guess.length then (guess.length + 8) / 64 + 1 else 0) ∧
      (Counted.pbkdf2_sha256 T guess S c out).run 0 = (pbkdf2_sha256 T guess S c out).map (fun o => (o, c * one + more)) := by
  have hc : Counted.Costs (macCounted T guess u) (macChunks T guess [u]) (4 + Counted.keyCost guess) := by
    unfold macCounted macChunks
    refine ((Counted.costs_hmacNew T guess).1.bind (d := 2) fun h0 q0 => ?_).of_eq (by omega)
    have a0 := (Counted.costs_hmacNew T guess).2 h0 q0
    simp only [List.foldlM_cons, List.foldlM_nil, bind_pure]
    refine ((Counted.costs_hmacUpdate T h0 0 a0 u).1.bind (d := 2) fun h1 q1 => ?_).of_eq (by rw [hu])
    have a1 := (Counted.costs_hmacUpdate T h0 0 a0 u).2 h1 q1
    refine ((Counted.costs_hmacDigest T h1 _ a1).bind' fun _ => Counted.Costs.ret _).of_eq ?_
    rw [hu]
  have hl : 1 ≤ (out.length + 31) / 32 := by
    have := List.length_pos_iff.mpr ho
    omega
  refine ⟨4 + Counted.keyCost guess, (out.length + 31) / 32 * ((S.length + 12) / 64 + max c 1 * (4 + Counted.keyCost guess)) -
    c * (4 + Counted.keyCost guess), ?_, rfl, ?_⟩
  · have := hc 0
    rwa [Nat.zero_add] at this
  · rw [Work.C61_pbkdf2 T guess S c out hout]
    congr 1
    funext o
    congr 1
    rw [Nat.add_sub_cancel' ?_]
    · rfl
    · calc c * (4 + Counted.keyCost guess) ≤ max c 1 * (4 + Counted.keyCost guess) := Nat.mul_le_mul_right _ (Nat.le_max_left _ _)
        _ ≤ 1 * ((S.length + 12) / 64 + max c 1 * (4 + Counted.keyCost guess)) := by omega
        _ ≤ _ := Nat.mul_le_mul_right _ hl

/-- Keys of 32, 40 and 64 bytes derived with 1000, 1001 and 1002 iterations. -/
example (T : Target) : ∃ k0 k1 k2 : List U8, pbkdf2_sha256 T [1, 2] [3] 1000 (List.replicate 32 0) = .ok k0 ∧
    pbkdf2_sha256 T [1, 2] [3] 1001 (List.replicate 40 0) = .ok k1 ∧ pbkdf2_sha256 T [1, 2] [3] 1002 (List.replicate 64 0) = .ok k2 ∧
    macChunks T [1, 2] [Spec.xorBytes (part 0 k0) (part 0 k1)] = .ok (Spec.xorBytes (part 0 k1) (part 0 k2)) := by
  have h := T.two_pow_ge
  have hi : 64 ≤ T.isizeMax := by rcases T with ⟨_ | _, _ | _⟩ <;> decide
  have e (c n : Nat) (hc : 1 ≤ c) (hn : n ≤ 64) := Pbkdf2.C08_pbkdf2_correct T [1, 2] [3] c (List.replicate n 0) hc
    (by simp; omega) (by simp; omega) (by simp; omega) (by simp; omega)
  refine ⟨_, _, _, e 1000 32 (by decide) (by decide), e 1001 40 (by decide) (by decide), e 1002 64 (by decide) (by decide), ?_⟩
  refine (C122_test T [1, 2] [3] 1000 (by decide) (List.replicate 32 0) (List.replicate 40 0) (List.replicate 64 0) _ _ _
    (by simp; omega) (by simp; omega) ?_ (e 1000 32 (by decide) (by decide)) (e 1001 40 (by decide) (by decide))
    (e 1002 64 (by decide) (by decide)) 0 ?_).1
  · simp
    omega
  · simp

end Verif.Props.Iterations
