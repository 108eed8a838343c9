import Verif.Props.Iterations

/-! Property C128: one part of a long derived key is enough to test passwords. -/

namespace Verif.Props.OnePart
open Verif Verif.Hmac Verif.Pbkdf2 Verif.Props.Hmac Verif.Props.Iterations Spec.Pbkdf2

/-- `HMac::new`, `update` with the pieces and `digest`, counting compressions. -/
def mac (T : Target) (key : List U8) (pieces : List (List U8)) : Counted.C (List U8) := do
  let h ← Counted.hmacNew T key
  let h ← pieces.foldlM (Counted.hmacUpdate T) h
  let (_, d) ← Counted.hmacDigest T h
  return d.toList

/-- The part number `i` (from 0) of a derived key, with `n + 1` iterations: the last HMAC, and the exclusive or of all of them. -/
def alone (T : Target) (password salt : List U8) (i : Nat) : (n : Nat) → Counted.C (List U8 × List U8)
  | 0 => do
    let u ← mac T password [salt, Spec.beBytes 4 (i + 1)]
    return (u, u)
  | n + 1 => do
    let (u, t) ← alone T password salt i n
    let u ← mac T password [u]
    return (u, Spec.xorBytes t u)

theorem costs_updates (T : Target) (pieces : List (List U8)) (h : HMac) (m : Nat) (hm : Counted.Aligned h m) :
    Counted.Costs (pieces.foldlM (Counted.hmacUpdate T) h) (pieces.foldlM (HMac.update T) h) ((m % 64 + pieces.flatten.length) / 64) ∧
      ∀ h', pieces.foldlM (HMac.update T) h = .ok h' → Counted.Aligned h' (m + pieces.flatten.length) := by
  induction pieces generalizing h m with
  | nil =>
    refine ⟨(Counted.Costs.ret h).of_eq ?_, fun h' e => ?_⟩
    · simp only [List.flatten_nil, List.length_nil]; omega
    · cases e; exact hm
  | cons b pieces ih =>
    obtain ⟨h1, h2⟩ := Counted.costs_hmacUpdate T h m hm b
    rw [List.foldlM_cons, List.foldlM_cons]
    constructor
    · refine (h1.bind (d := ((m + b.length) % 64 + pieces.flatten.length) / 64) fun h' e => (ih h' _ (h2 h' e)).1).of_eq ?_
      rw [List.flatten_cons, List.length_append]
      omega
    · intro h'' e
      cases e1 : h.update T b with
      | error err => rw [e1] at e; cases e
      | ok h' =>
        rw [e1] at e
        have := (ih h' _ (h2 h' e1)).2 h'' e
        rwa [List.flatten_cons, List.length_append, ← Nat.add_assoc]

theorem costs_mac (T : Target) (key : List U8) (pieces : List (List U8)) :
    Counted.Costs (mac T key pieces) (macChunks T key pieces) (4 + Counted.keyCost key + (pieces.flatten.length + 8) / 64) := by
  unfold mac macChunks
  obtain ⟨h1, h2⟩ := Counted.costs_hmacNew T key
  refine (h1.bind (d := pieces.flatten.length / 64 + ((pieces.flatten.length % 64 + 8) / 64 + 2)) fun h e => ?_).of_eq (by omega)
  obtain ⟨h3, h4⟩ := costs_updates T pieces h 0 (h2 h e)
  refine (h3.bind (d := (pieces.flatten.length % 64 + 8) / 64 + 2) fun h' e' => ?_).of_eq (by omega)
  refine ((Counted.costs_hmacDigest T h' _ (h4 h' e')).bind' fun _ => Counted.Costs.ret _).of_eq ?_
  rw [Nat.zero_add]

theorem mac_run (T : Target) (key : List U8) (pieces : List (List U8)) (hk : 8 * key.length < 2 ^ T.bits)
    (hm : 8 * (64 + pieces.flatten.length) < 2 ^ T.bits) (k : Nat) :
    mac T key pieces k = .ok (Spec.hmacSha256 key pieces.flatten, k + (4 + Counted.keyCost key + (pieces.flatten.length + 8) / 64)) := by
  rw [costs_mac T key pieces k, C06_hmac_correct T key pieces hk hm]
  rfl

theorem alone_run (T : Target) (P S : List U8) (i n : Nat) (hP : 8 * P.length < 2 ^ T.bits) (hS : 8 * (64 + S.length + 4) < 2 ^ T.bits) (k : Nat) :
    alone T P S i n k = .ok ((U Spec.hmacSha256 P S (i + 1) n, F Spec.hmacSha256 P S (n + 1) (i + 1)),
      k + ((S.length + 12) / 64 + (n + 1) * (4 + Counted.keyCost P))) := by
  have hT := T.two_pow_ge
  induction n with
  | zero =>
    have hl : [S, Spec.beBytes 4 (i + 1)].flatten.length = S.length + 4 := by simp [Spec.beBytes]
    have h := mac_run T P [S, Spec.beBytes 4 (i + 1)] hP (by rw [hl]; omega) k
    rw [alone]
    show (mac T P [S, Spec.beBytes 4 (i + 1)] >>= fun u => pure (u, u)) k = _
    simp only [bind, StateT.bind, h, Except.bind]
    rw [hl]
    have e : [S, Spec.beBytes 4 (i + 1)].flatten = S ++ Spec.beBytes 4 (i + 1) := by simp
    rw [e, U, F]
    simp only [Nat.zero_add, Nat.sub_self, List.range_zero, List.foldl_nil, U, Nat.one_mul]
    show Except.ok (_, _) = _
    congr 2
    omega
  | succ n ih =>
    have hl := U_len P S (i + 1) n
    have h := mac_run T P [U Spec.hmacSha256 P S (i + 1) n] hP (by simp [hl]; omega)
    rw [alone]
    simp only [bind, StateT.bind, ih, Except.bind, h]
    have e : [U Spec.hmacSha256 P S (i + 1) n].flatten = U Spec.hmacSha256 P S (i + 1) n := by simp
    rw [e, hl]
    show Except.ok (_, _) = _
    rw [show Spec.hmacSha256 P (U Spec.hmacSha256 P S (i + 1) n) = U Spec.hmacSha256 P S (i + 1) (n + 1) from rfl,
      F_succ P S (n + 1) (i + 1) (by omega)]
    congr 2
    rw [Nat.succ_mul (n + 1)]
    omega

/-- **C128.** A key of any length is derived. Each whole part of 32 bytes of it can be computed without the other parts, by the HMACs that
`alone` takes; so a password can be tested if one part is known. To derive the key takes as many times more compressions as the key has parts,
the last one, which may be shorter, counted as a whole one. -/
theorem C128_part (T : Target) (P S : List U8) (c : Nat) (hc : 1 ≤ c) (out key : List U8)
    (hP : 8 * P.length < 2 ^ T.bits) (hS : 8 * (64 + S.length + 4) < 2 ^ T.bits)
    (hout : out.length ≤ T.isizeMax) (hout' : out.length ≤ (2 ^ 32 - 1) * 32)
    (h : pbkdf2_sha256 T P S c out = .ok key) (i : Nat) (hi : 32 * (i + 1) ≤ out.length) :
    ∃ (u : List U8) (work : Nat), (alone T P S i (c - 1)).run 0 = .ok ((u, part i key), work) ∧ 4 * c ≤ work ∧
      (Counted.pbkdf2_sha256 T P S c out).run 0 = .ok (key, (out.length + 31) / 32 * work) := by
  have h' := h
  rw [Pbkdf2.C08_pbkdf2_correct T P S _ _ hc hP hS hout hout'] at h'
  have h'' := Except.ok.inj h'
  refine ⟨_, _, (alone_run T P S i (c - 1) hP hS 0).trans (by rw [← h'', part_pbkdf2 _ _ _ _ _ hi, Nat.sub_add_cancel hc]), ?_, ?_⟩
  · rw [Nat.mul_add]
    omega
  · rw [Work.C61_pbkdf2 T P S c out hout, h, Nat.max_eq_left hc, Nat.zero_add]
    rfl

/-- A key of 64 bytes derived with 1000 iterations: its second half takes half of the work. -/
example (T : Target) : ∃ key u work, pbkdf2_sha256 T [1, 2, 3] [4, 5] 1000 (List.replicate 64 0) = .ok key ∧
    (alone T [1, 2, 3] [4, 5] 1 999).run 0 = .ok ((u, part 1 key), work) ∧
    (Counted.pbkdf2_sha256 T [1, 2, 3] [4, 5] 1000 (List.replicate 64 0)).run 0 = .ok (key, 2 * work) := by
  have hT := T.two_pow_ge
  have ho : (List.replicate 64 (0 : U8)).length ≤ T.isizeMax := by rcases T with ⟨_ | _, _ | _⟩ <;> decide
  have h := Pbkdf2.C08_pbkdf2_correct T [1, 2, 3] [4, 5] 1000 (List.replicate 64 0) (by omega) (by simp; omega) (by simp; omega) ho (by simp)
  obtain ⟨u, work, h1, -, h2⟩ := C128_part T [1, 2, 3] [4, 5] 1000 (by omega) (List.replicate 64 0) _ (by simp; omega) (by simp; omega) ho (by simp) h 1
    (by simp)
  exact ⟨_, u, work, h, h1, by simpa using h2⟩

end Verif.Props.OnePart
