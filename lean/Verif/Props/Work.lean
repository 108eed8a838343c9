import Verif.Proof.Counted
import Verif.Props.Sha256

/-! Property C61: how much work the functions do. `Verif.Model.Counted` holds copies of the models with a counter; each theorem
says that the copy behaves as the model (same result, same panics) and gives the exact count when it returns. -/

namespace Verif.Props.Work
open Verif Verif.Sha256 Verif.Scrypt
open Verif.Props.Sha256 (hashChunks)

/-- Hashing the concatenation of `chunks`, counting compressions. -/
def hashChunksCounted (T : Target) (chunks : List (List U8)) : Counted.C (List U8) := do
  let s ← chunks.foldlM (Counted.update T) SHA256.new
  let (_, d) ← Counted.digest T s
  return d.toList

theorem costs_updates (T : Target) (chunks : List (List U8)) (s : SHA256) :
    Counted.Costs (chunks.foldlM (Counted.update T) s) (chunks.foldlM (SHA256.update T) s)
      ((s.length % 64 + chunks.flatten.length) / 64) ∧
      ∀ s', chunks.foldlM (SHA256.update T) s = .ok s' → s'.length % 64 = (s.length + chunks.flatten.length) % 64 := by
  induction chunks generalizing s with
  | nil =>
    have hlt : s.length % 64 < 64 := Nat.mod_lt _ (by decide)
    refine ⟨(Counted.Costs.ret _).of_eq ?_, fun s' h => ?_⟩
    · rw [List.flatten_nil, List.length_nil]; omega
    · cases h; rfl
  | cons c cs ih =>
    obtain ⟨h1, h2⟩ := Counted.costs_update T s c
    rw [List.foldlM_cons, List.foldlM_cons, List.flatten_cons, List.length_append]
    constructor
    · refine (h1.bind (d := ((s.length + c.length) % 64 + cs.flatten.length) / 64) fun s1 e => ?_).of_eq ?_
      · exact (ih s1).1.of_eq (by rw [h2 s1 e])
      · generalize cs.flatten.length = m
        omega
    · intro s' h
      obtain ⟨s1, e, h⟩ := Counted.bind_ok h
      have h3 := (ih s1).2 s' h
      have h4 := h2 s1 e
      generalize cs.flatten.length = m at *
      omega

/-- **C61.** Hashing a message of `m` bytes, however it is cut into `update` calls, calls the compression function exactly
`(m + 8) / 64 + 1` times: the number of 64-byte blocks of the padded message. The contents of the message do not matter. -/
theorem C61_sha256 (T : Target) (chunks : List (List U8)) :
    (hashChunksCounted T chunks).run 0 =
      (hashChunks T chunks).map fun d => (d, (chunks.flatten.length + 8) / 64 + 1) := by
  have : Counted.Costs (hashChunksCounted T chunks) (hashChunks T chunks) ((chunks.flatten.length + 8) / 64 + 1) := by
    unfold hashChunksCounted hashChunks
    obtain ⟨h1, h2⟩ := costs_updates T chunks SHA256.new
    refine (h1.bind (d := (chunks.flatten.length % 64 + 8) / 64 + 1) fun s hs => ?_).of_eq ?_
    · refine ((Counted.costs_digest T s).bind' fun _ => Counted.Costs.ret _).of_eq ?_
      rw [h2 s hs]
      show ((0 + chunks.flatten.length) % 64 + 8) / 64 + 1 + 0 = _
      rw [Nat.zero_add, Nat.add_zero]
    · show (0 % 64 + chunks.flatten.length) / 64 + _ = _
      generalize chunks.flatten.length = m
      omega
  have h := this 0
  rw [Nat.zero_add] at h
  exact h

/-- A message of 119 bytes takes two compressions and one of 120 bytes three. -/
example (T : Target) (a b : List U8) (ha : a.length = 100) (hb : b.length = 19) :
    (hashChunksCounted T [a, b]).run 0 = (hashChunks T [a, b]).map fun d => (d, 2) := by
  rw [C61_sha256]
  simp [ha, hb]

example (T : Target) (a b : List U8) (ha : a.length = 100) (hb : b.length = 20) :
    (hashChunksCounted T [a, b]).run 0 = (hashChunks T [a, b]).map fun d => (d, 3) := by
  rw [C61_sha256]
  simp [ha, hb]

/-- **C61.** PBKDF2 with an iteration count `c`, for a buffer of at most `isize::MAX` bytes (as every buffer is): each of the
`⌈length / 32⌉` output blocks takes `max c 1` HMACs, each HMAC four compressions, plus those for the salt of the first one,
and plus the hashing of a password of more than 64 bytes, which is repeated for every HMAC. -/
theorem C61_pbkdf2 (T : Target) (P S : List U8) (c : Nat) (out : List U8) (hout : out.length ≤ T.isizeMax) :
    (Counted.pbkdf2_sha256 T P S c out).run 0 = (Pbkdf2.pbkdf2_sha256 T P S c out).map fun o =>
      (o, (out.length + 31) / 32 *
        ((S.length + 12) / 64 + max c 1 * (4 + if 64 < P.length then (P.length + 8) / 64 + 1 else 0))) := by
  have h := Counted.costs_pbkdf2 T P S c out hout 0
  rw [Nat.zero_add] at h
  refine h.trans ?_
  congr 1
  funext o
  congr 2
  have e : Counted.keyCost P = if 64 < P.length then (P.length + 8) / 64 + 1 else 0 := rfl
  unfold Counted.macCost
  rw [e]
  generalize (if 64 < P.length then (P.length + 8) / 64 + 1 else 0) = q
  have e2 : max c 1 = (c - 1) + 1 := by omega
  rw [e2, Nat.succ_mul, show q + 4 + (32 + 8) / 64 = 4 + q by omega]
  omega

/-- 80000 iterations for a 64-byte key with short password and salt take 640000 compressions. -/
example (T : Target) (o : Vector U8 64) :
    (Counted.pbkdf2_sha256 T [1, 2, 3] [4, 5] 80000 o.toList).run 0 =
      (Pbkdf2.pbkdf2_sha256 T [1, 2, 3] [4, 5] 80000 o.toList).map fun o => (o, 640000) := by
  rw [C61_pbkdf2 T _ _ _ _ (by
    rw [Vector.length_toList]
    unfold Target.isizeMax
    rcases T.bits_cases with h | h <;> rw [h] <;> decide)]
  simp

/-- **C61.** scrypt with parameters `r`, `N`, `p` calls the Salsa20/8 core exactly `4 * N * r * p` times when it derives a key,
and never when it rejects the parameters, whatever the passphrase and the salt. (In a release build the size computation of the
source must not wrap: see C21 for what happens when it does.) -/
theorem C61_scrypt (T : Target) (r n p : Nat) (P S out : List U8)
    (hwrap : T.checks = true ∨ 128 * r * p < 2 ^ T.bits) :
    (Counted.derive T (Scrypt.new r n p) P S out).run 0 = ((Scrypt.new r n p).derive T P S out).map fun q =>
      (q, match q.2 with
        | .ok () => 4 * n * r * p
        | .error _ => 0) := by
  have h := Counted.costs_derive T (Scrypt.new r n p) P S out hwrap 0
  simp only [Nat.zero_add] at h
  exact h

/-- The README's parameters: 512 calls. -/
example (T : Target) (P S out : List U8) :
    (Counted.derive T (Scrypt.new 1 128 1) P S out).run 0 = ((Scrypt.new 1 128 1).derive T P S out).map fun q =>
      (q, match q.2 with
        | .ok () => 512
        | .error _ => 0) :=
  C61_scrypt T 1 128 1 P S out (.inr (by have := T.two_pow_ge; omega))

end Verif.Props.Work
