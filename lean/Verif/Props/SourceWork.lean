import Verif.Source.CostScrypt
import Verif.Props.FromText

/-!
Property C96: how much work the program in the text does. `callT` (`Source/Leak.lean`) evaluates a call and lists what it does, among
other things the calls it makes; its result is that of `call` (`callT_erase`). `calls g t` is how often `g` is called in the list `t`.
Each theorem gives the exact number for every call that returns.
-/

namespace Verif.Props.SourceWork
open Verif Verif.Source Verif.Text Verif.Props.FromText

/-- What methods called one after the other on the same object do, up to the first that does not return. -/
def seenHistory (p : Program) (T : Target) (fuel depth : Nat) : Val → List (Fn × List Val) → Trace
  | _, [] => []
  | obj, c :: cs =>
    (callT T p fuel depth c.1 (obj :: c.2)).1 ++
      match invokeIn p T fuel depth obj c with
      | .ok (obj', _) => seenHistory p T fuel depth obj' cs
      | .error _ => []

/-- What a constructor, and then methods on the new object, do. -/
def seenSession (p : Program) (T : Target) (fuel depth : Nat) (new : Fn × List Val) (cs : List (Fn × List Val)) : Trace :=
  (callT T p fuel depth new.1 new.2).1 ++
    match call T p fuel depth new.1 new.2 with
    | .ok (obj, _) => seenHistory p T fuel depth obj cs
    | .error _ => []

/-- The compression function of SHA-256. -/
local notation "compress" => Fn.sha256_SHA256_process_block
/-- The Salsa20 core. -/
local notation "core" => Fn.salsa20_salsa20

theorem up_bind_ok {α β : Type} {m : M α} {f : α → Source.R β} {y : β} (h : up m >>= f = .ok y) : ∃ a, m = .ok a ∧ f a = .ok y := by
  cases m with
  | error e => cases h
  | ok a => exact ⟨a, rfl, h⟩

theorem bind_ok' {α β : Type} {m : Source.R α} {f : α → Source.R β} {y : β} (h : m >>= f = .ok y) : ∃ a, m = .ok a ∧ f a = .ok y := by
  cases m with
  | error e => cases h
  | ok a => exact ⟨a, rfl, h⟩

theorem sha_history (T : Target) (F d : Nat) (chunks : List (List U8)) (s : Sha256.SHA256) (vs : List Val)
    (h : historyIn crate T F (d + 8) (encSha s)
      (chunks.map (fun c => (.sha256_SHA256_update, [bytes c])) ++ [(.sha256_SHA256_digest, [])]) = .ok vs) :
    calls compress (seenHistory crate T F (d + 8) (encSha s)
      (chunks.map (fun c => (.sha256_SHA256_update, [bytes c])) ++ [(.sha256_SHA256_digest, [])])) =
        (s.length % 64 + chunks.flatten.length + 8) / 64 + 1 := by
  induction chunks generalizing s vs with
  | nil =>
    simp only [List.map_nil, List.nil_append, historyIn, invokeIn] at h
    rw [src_digest T F (d + 4) s] at h
    obtain ⟨r, e, h⟩ := bind_ok' h
    obtain ⟨r, e, _⟩ := bind_ok' e
    obtain ⟨⟨s', o⟩, e, _⟩ := up_bind_ok e
    simp only [List.map_nil, List.nil_append, seenHistory, calls_append]
    have c1 := calls_digest T F (d + 4) s s' o e
    refine (congrArg (· + _) c1).trans ?_
    rw [show (calls compress (match invokeIn crate T F (d + 8) (encSha s) (Fn.sha256_SHA256_digest, []) with
      | .ok (_, _) => ([] : Trace)
      | .error _ => [])) = 0 by split <;> rfl]
    simp
  | cons c cs ih =>
    have hi : invokeIn crate T F (d + 8) (encSha s) (.sha256_SHA256_update, [bytes c]) =
        (up (s.update T c) >>= fun s => .ok (encSha s, .unit)) := by
      show (call T crate F (d + 8) .sha256_SHA256_update [encSha s, bytes c] >>= _) = _
      rw [src_update T F (d + 4) s c]
      cases s.update T c <;> rfl
    simp only [List.map_cons, List.cons_append, historyIn, hi] at h
    obtain ⟨⟨obj, v⟩, e, h⟩ := bind_ok' h
    obtain ⟨s', eu, e'⟩ := up_bind_ok e
    cases e'
    obtain ⟨vs', e', _⟩ := bind_ok' h
    have c1 := calls_update T F (d + 4) s c s' eu
    simp only [List.map_cons, List.cons_append, seenHistory, calls_append, hi, eu]
    refine (congrArg (· + _) c1).trans ?_
    refine (congrArg ((s.length % 64 + c.length) / 64 + ·) (ih s' vs' e')).trans ?_
    have hl := (Counted.costs_update T s c).2 s' eu
    rw [hl, List.flatten_cons, List.length_append]
    omega

theorem hmac_history (T : Target) (F d : Nat) (chunks : List (List U8)) (s : Hmac.HMac) (m : Nat) (hm : Counted.Aligned s m)
    (vs : List Val)
    (h : historyIn crate T F (d + 8) (encHMac s)
      (chunks.map (fun c => (.hmac_HMac_update, [bytes c])) ++ [(.hmac_HMac_digest, [])]) = .ok vs) :
    calls compress (seenHistory crate T F (d + 8) (encHMac s)
      (chunks.map (fun c => (.hmac_HMac_update, [bytes c])) ++ [(.hmac_HMac_digest, [])])) =
        (m % 64 + chunks.flatten.length + 8) / 64 + 2 := by
  induction chunks generalizing s m vs with
  | nil =>
    simp only [List.map_nil, List.nil_append, historyIn, invokeIn] at h
    rw [src_HMac_digest T F (d + 3) s] at h
    obtain ⟨r, e, h⟩ := bind_ok' h
    obtain ⟨r, e, _⟩ := bind_ok' e
    obtain ⟨r, e, _⟩ := up_bind_ok e
    simp only [List.map_nil, List.nil_append, seenHistory, calls_append]
    have c1 := calls_HMac_digest T F (d + 3) s m hm r e
    refine (congrArg (· + _) c1).trans ?_
    rw [show (calls compress (match invokeIn crate T F (d + 8) (encHMac s) (Fn.hmac_HMac_digest, []) with
      | .ok (_, _) => ([] : Trace)
      | .error _ => [])) = 0 by split <;> rfl]
    simp
  | cons c cs ih =>
    have hi : invokeIn crate T F (d + 8) (encHMac s) (.hmac_HMac_update, [bytes c]) =
        (up (s.update T c) >>= fun s => .ok (encHMac s, .unit)) := by
      show (call T crate F (d + 8) .hmac_HMac_update [encHMac s, bytes c] >>= _) = _
      rw [src_HMac_update T F (d + 3) s c]
      cases s.update T c <;> rfl
    simp only [List.map_cons, List.cons_append, historyIn, hi] at h
    obtain ⟨⟨obj, v⟩, e, h⟩ := bind_ok' h
    obtain ⟨s', eu, e'⟩ := up_bind_ok e
    cases e'
    obtain ⟨vs', e', _⟩ := bind_ok' h
    have c1 := calls_HMac_update T F (d + 3) s m hm c s' eu
    simp only [List.map_cons, List.cons_append, seenHistory, calls_append, hi, eu]
    refine (congrArg (· + _) c1).trans ?_
    refine (congrArg ((m % 64 + c.length) / 64 + ·) (ih s' (m + c.length) ((Counted.costs_hmacUpdate T s m hm c).2 s' eu) vs' e')).trans ?_
    rw [List.flatten_cons, List.length_append]
    omega

variable {p : Program} (hp : IsProgram Files.lib sources p)
include hp

/-- **C96.** Hashing a message of `m` bytes, however it is cut into `update` calls, runs the compression function exactly
`(m + 8) / 64 + 1` times: once for every 64-byte block of the padded message. What the bytes are does not matter. -/
theorem C96_sha256 (T : Target) (fuel depth : Nat) (hd : 8 ≤ depth) (chunks : List (List U8)) (vs : List Val)
    (h : sessionIn p T fuel depth (.sha256_SHA256_new, [])
        (chunks.map (fun c => (.sha256_SHA256_update, [bytes c])) ++ [(.sha256_SHA256_digest, [])]) = .ok vs) :
    calls compress (seenSession p T fuel depth (.sha256_SHA256_new, [])
        (chunks.map (fun c => (.sha256_SHA256_update, [bytes c])) ++ [(.sha256_SHA256_digest, [])])) =
      (chunks.flatten.length + 8) / 64 + 1 := by
  rw [C86_text.2 p hp] at h ⊢
  obtain ⟨d, rfl⟩ := Nat.exists_eq_add_of_le' hd
  have hn := src_new T fuel (d + 7)
  have h0 : calls compress (callT T crate fuel (d + 8) .sha256_SHA256_new []).1 = 0 :=
    callT_avoids' noBlock_closed T fuel (d + 8) _ (by decide +kernel) _
  rw [sessionIn] at h
  rw [seenSession, calls_append]
  dsimp only at h ⊢
  rw [hn] at h ⊢
  rw [h0]
  have := sha_history T fuel d chunks Sha256.SHA256.new vs h
  refine (congrArg (0 + ·) this).trans ?_
  show 0 + ((0 % 64 + chunks.flatten.length + 8) / 64 + 1) = _
  omega

/-- **C96.** A MAC of a message of `m` bytes, however it is cut into `update` calls, runs the compression function exactly
`(m + 8) / 64 + 4` times, plus the blocks of the key when the key has more than 64 bytes. -/
theorem C96_hmac (T : Target) (fuel depth : Nat) (hd : 8 ≤ depth) (key : List U8) (chunks : List (List U8)) (vs : List Val)
    (h : sessionIn p T fuel depth (.hmac_HMac_new, [bytes key])
        (chunks.map (fun c => (.hmac_HMac_update, [bytes c])) ++ [(.hmac_HMac_digest, [])]) = .ok vs) :
    calls compress (seenSession p T fuel depth (.hmac_HMac_new, [bytes key])
        (chunks.map (fun c => (.hmac_HMac_update, [bytes c])) ++ [(.hmac_HMac_digest, [])])) =
      (chunks.flatten.length + 8) / 64 + 4 + if 64 < key.length then (key.length + 8) / 64 + 1 else 0 := by
  rw [C86_text.2 p hp] at h ⊢
  obtain ⟨d, rfl⟩ := Nat.exists_eq_add_of_le' hd
  have hn := src_HMac_new T fuel (d + 2) key
  rw [sessionIn] at h
  rw [seenSession, calls_append]
  dsimp only at h ⊢
  rw [hn] at h ⊢
  obtain ⟨⟨obj, os⟩, e, h⟩ := bind_ok' h
  obtain ⟨s, eu, e'⟩ := up_bind_ok e
  cases e'
  rw [calls_HMac_new T fuel (d + 2) key s eu, eu]
  have := hmac_history T fuel d chunks s 0 ((Counted.costs_hmacNew T key).2 s eu) vs h
  refine (congrArg (Counted.keyCost key + 2 + ·) this).trans ?_
  rw [show Counted.keyCost key = if 64 < key.length then (key.length + 8) / 64 + 1 else 0 from rfl]
  generalize (if 64 < key.length then (key.length + 8) / 64 + 1 else 0) = q
  show q + 2 + ((0 % 64 + chunks.flatten.length + 8) / 64 + 2) = _
  omega

omit hp in
theorem pbkdf2_cost (P : List U8) (n c : Nat) :
    Counted.macCost P (n + 4) + (c - 1) * Counted.macCost P 32 =
      (n + 12) / 64 + max c 1 * (4 + if 64 < P.length then (P.length + 8) / 64 + 1 else 0) := by
  have e : Counted.keyCost P = if 64 < P.length then (P.length + 8) / 64 + 1 else 0 := rfl
  unfold Counted.macCost
  rw [e]
  generalize (if 64 < P.length then (P.length + 8) / 64 + 1 else 0) = q
  have e2 : max c 1 = (c - 1) + 1 := by omega
  rw [e2, Nat.succ_mul, show q + 4 + (32 + 8) / 64 = 4 + q by omega]
  omega

/-- **C96.** PBKDF2 with the iteration count `c`, for any buffer (no buffer has more than `isize::MAX` bytes): each of the
`⌈length / 32⌉` blocks of the output takes `max c 1` MACs, each of four compressions, plus those for the salt in the first one and
plus the blocks of a password of more than 64 bytes, which is hashed again for every MAC. -/
theorem C96_pbkdf2 (T : Target) (fuel depth : Nat) (hd : 8 ≤ depth) (P S : List U8) (c : Nat) (out : List U8)
    (hout : out.length ≤ T.isizeMax) (r : Val × List Val)
    (h : call T p fuel depth .pbkdf2_pbkdf2_sha256 [bytes P, bytes S, .usize c, bytes out] = .ok r) :
    calls compress (callT T p fuel depth .pbkdf2_pbkdf2_sha256 [bytes P, bytes S, .usize c, bytes out]).1 =
      (out.length + 31) / 32 *
        ((S.length + 12) / 64 + max c 1 * (4 + if 64 < P.length then (P.length + 8) / 64 + 1 else 0)) := by
  rw [C86_text.2 p hp] at h ⊢
  obtain ⟨d, rfl⟩ := Nat.exists_eq_add_of_le' hd
  have hs := src_pbkdf2 T fuel (d + 1) P S out c hout
  rw [show d + 8 = d + 1 + 7 by omega] at h ⊢
  rw [hs] at h
  obtain ⟨o, e, _⟩ := up_bind_ok h
  rw [calls_pbkdf2 T fuel (d + 1) P S out c hout o e, pbkdf2_cost]

/-- **C96.** scrypt with the parameters `r`, `N` and `k` runs the Salsa20 core exactly `4 * N * r * k` times when it derives a key, and
never when it returns an error, whatever the passphrase and the salt. (In a release build `128 * r * k` must not wrap: see C21.) -/
theorem C96_scrypt (T : Target) (fuel depth : Nat) (hd : 8 ≤ depth) (r n k : Nat) (P S out : List U8)
    (hout : out.length ≤ T.isizeMax) (hwrap : T.checks = true ∨ 128 * r * k < 2 ^ T.bits)
    (self v : Val) (os os' : List Val) (hnew : call T p fuel depth .scrypt_Scrypt_new [.usize r, .usize n, .usize k] = .ok (self, os))
    (h : call T p fuel depth .scrypt_Scrypt_derive [self, bytes P, bytes S, bytes out] = .ok (v, os')) :
    (v = .enum .Ok [.unit] →
      calls core (callT T p fuel depth .scrypt_Scrypt_derive [self, bytes P, bytes S, bytes out]).1 = 4 * n * r * k) ∧
    (v ≠ .enum .Ok [.unit] →
      calls core (callT T p fuel depth .scrypt_Scrypt_derive [self, bytes P, bytes S, bytes out]).1 = 0) := by
  rw [C86_text.2 p hp] at hnew h ⊢
  obtain ⟨d, rfl⟩ := Nat.exists_eq_add_of_le' hd
  cases (src_Scrypt_new T fuel (d + 7) r n k).symm.trans hnew
  rw [src_derive T fuel d (.new r n k) P S out hout] at h
  obtain ⟨⟨o, e⟩, hm, h⟩ := up_bind_ok h
  have hc := calls_derive T fuel d (.new r n k) P S out hwrap o e hm
  cases h
  rw [hc]
  cases e with
  | ok u => exact ⟨fun _ => rfl, fun hne => absurd rfl hne⟩
  | error e => exact ⟨fun he => (by cases he), fun _ => rfl⟩

/-- **C96.** The hashing that scrypt does besides: one iteration of PBKDF2 for `128 * r * k` bytes, and one for the output, with
`128 * r * k` bytes of salt. Nothing when it returns an error. -/
theorem C96_scrypt_hashing (T : Target) (fuel depth : Nat) (hd : 8 ≤ depth) (r n k : Nat) (P S out : List U8)
    (hout : out.length ≤ T.isizeMax) (hwrap : T.checks = true ∨ 128 * r * k < 2 ^ T.bits)
    (self v : Val) (os os' : List Val) (hnew : call T p fuel depth .scrypt_Scrypt_new [.usize r, .usize n, .usize k] = .ok (self, os))
    (h : call T p fuel depth .scrypt_Scrypt_derive [self, bytes P, bytes S, bytes out] = .ok (v, os')) :
    (v = .enum .Ok [.unit] →
      calls compress (callT T p fuel depth .scrypt_Scrypt_derive [self, bytes P, bytes S, bytes out]).1 =
        4 * r * k * ((S.length + 12) / 64 + 4 + if 64 < P.length then (P.length + 8) / 64 + 1 else 0) +
        (out.length + 31) / 32 * ((128 * r * k + 12) / 64 + 4 + if 64 < P.length then (P.length + 8) / 64 + 1 else 0)) ∧
    (v ≠ .enum .Ok [.unit] →
      calls compress (callT T p fuel depth .scrypt_Scrypt_derive [self, bytes P, bytes S, bytes out]).1 = 0) := by
  rw [C86_text.2 p hp] at hnew h ⊢
  obtain ⟨d, rfl⟩ := Nat.exists_eq_add_of_le' hd
  cases (src_Scrypt_new T fuel (d + 7) r n k).symm.trans hnew
  rw [src_derive T fuel d (.new r n k) P S out hout] at h
  obtain ⟨⟨o, e⟩, hm, h⟩ := up_bind_ok h
  have hc := calls_derive_blocks T fuel d (.new r n k) P S out hout hwrap o e hm
  cases h
  rw [hc]
  cases e with
  | ok u =>
    refine ⟨fun _ => ?_, fun hne => absurd rfl hne⟩
    have e1 := pbkdf2_cost P S.length 1
    have e2 := pbkdf2_cost P (128 * r * k) 1
    simp only [Nat.sub_self, Nat.zero_mul, Nat.add_zero, Nat.max_self, Nat.one_mul, ← Nat.add_assoc] at e1 e2
    show (128 * r * k + 31) / 32 * Counted.macCost P (S.length + 4) + (out.length + 31) / 32 * Counted.macCost P (128 * r * k + 4) = _
    rw [e1, e2, show (128 * r * k + 31) / 32 = 4 * r * k by
      rw [Nat.mul_assoc, Nat.mul_assoc]; omega]
  | error e => exact ⟨fun he => (by cases he), fun _ => rfl⟩

/-! ### The hypotheses are met -/

/-- A message in two pieces, of 119 bytes together: two blocks. -/
example (T : Target) (a b : List U8) (ha : a.length = 100) (hb : b.length = 19) :
    calls compress (seenSession p T 0 8 (.sha256_SHA256_new, [])
      [(.sha256_SHA256_update, [bytes a]), (.sha256_SHA256_update, [bytes b]), (.sha256_SHA256_digest, [])]) = 2 := by
  have hl : ([a, b] : List (List U8)).flatten.length = 119 := by simp [ha, hb]
  have := C96_sha256 hp T 0 8 (Nat.le_refl 8) [a, b] _ (C86_sha256 hp T 0 8 (Nat.le_refl 8) [a, b] (by
    rw [hl]; have := T.two_pow_ge; omega))
  rw [hl] at this
  exact this

/-- A long key and an empty message: 5 + 3 compressions. -/
example (T : Target) (key : List U8) (hk : key.length = 130) :
    calls compress (seenSession p T 0 8 (.hmac_HMac_new, [bytes key]) [(.hmac_HMac_digest, [])]) = 7 := by
  have := C96_hmac hp T 0 8 (Nat.le_refl 8) key [] _ (C86_hmac hp T 0 8 (Nat.le_refl 8) key []
    (by rw [hk]; have := T.two_pow_ge; omega) (by have := T.two_pow_ge; simp; omega))
  rw [hk] at this
  exact this

/-- 80000 iterations for a 64-byte key: 640000 compressions. -/
example (T : Target) (o : Vector U8 64) :
    calls compress (callT T p 0 8 .pbkdf2_pbkdf2_sha256 [bytes [1, 2, 3], bytes [4, 5], .usize 80000, bytes o.toList]).1 = 640000 := by
  have ho : o.toList.length ≤ T.isizeMax := by
    rw [Vector.length_toList]
    unfold Target.isizeMax
    rcases T.bits_cases with h | h <;> rw [h] <;> decide
  have h2 := T.two_pow_ge
  rw [C96_pbkdf2 hp T 0 8 (Nat.le_refl 8) [1, 2, 3] [4, 5] 80000 o.toList ho _
    (C86_pbkdf2 hp T 0 8 (Nat.le_refl 8) [1, 2, 3] [4, 5] 80000 o.toList (by decide) (by simp; omega) (by simp; omega) ho (by simp))]
  simp

/-- The README's parameters: 512 runs of the Salsa20 core. -/
example (T : Target) (o : Vector U8 32) :
    ∃ self, calls core (callT T p 0 8 .scrypt_Scrypt_derive [self, bytes [1, 2, 3], bytes [4, 5], bytes o.toList]).1 = 512 := by
  have ho : o.toList.length ≤ T.isizeMax := by
    rw [Vector.length_toList]
    unfold Target.isizeMax
    rcases T.bits_cases with h | h <;> rw [h] <;> decide
  have h2 := T.two_pow_ge
  have hs := C86_scrypt hp T 0 8 (Nat.le_refl 8) 1 128 1 [1, 2, 3] [4, 5] o.toList (by decide) ⟨7, rfl⟩ (by decide)
    (by unfold Target.isizeMax; rcases T.bits_cases with h | h <;> rw [h] <;> decide)
    (by unfold Target.isizeMax Target.vecSize; rcases T.bits_cases with h | h <;> rw [h] <;> decide)
    (by simp; omega) (by simp; omega) (by omega) ho
  obtain ⟨⟨self, os⟩, hnew, hd⟩ := bind_ok' hs
  exact ⟨self, (C96_scrypt hp T 0 8 (Nat.le_refl 8) 1 128 1 _ _ _ ho (.inr (by omega)) self _ os _ hnew hd).1 rfl⟩

/-- And 22 runs of the compression function. -/
example (T : Target) (o : Vector U8 32) :
    ∃ self, calls compress (callT T p 0 8 .scrypt_Scrypt_derive [self, bytes [1, 2, 3], bytes [4, 5], bytes o.toList]).1 = 22 := by
  have ho : o.toList.length ≤ T.isizeMax := by
    rw [Vector.length_toList]
    unfold Target.isizeMax
    rcases T.bits_cases with h | h <;> rw [h] <;> decide
  have h2 := T.two_pow_ge
  have hs := C86_scrypt hp T 0 8 (Nat.le_refl 8) 1 128 1 [1, 2, 3] [4, 5] o.toList (by decide) ⟨7, rfl⟩ (by decide)
    (by unfold Target.isizeMax; rcases T.bits_cases with h | h <;> rw [h] <;> decide)
    (by unfold Target.isizeMax Target.vecSize; rcases T.bits_cases with h | h <;> rw [h] <;> decide)
    (by simp; omega) (by simp; omega) (by omega) ho
  obtain ⟨⟨self, os⟩, hnew, hd⟩ := bind_ok' hs
  have := (C96_scrypt_hashing hp T 0 8 (Nat.le_refl 8) 1 128 1 _ _ _ ho (.inr (by omega)) self _ os _ hnew hd).1 rfl
  rw [Vector.length_toList] at this
  exact ⟨self, this⟩

end Verif.Props.SourceWork
