import Verif.Source.Api
import Verif.Source.Refine.Pbkdf2
import Verif.Props.Sha256
import Verif.Props.Hmac
import Verif.Props.Pbkdf2

/-!
Properties C62-C64: the text of `sha256.rs`, `hmac.rs` and `pbkdf2.rs`, evaluated by `Source/Semantics.lean`, computes
SHA-256, HMAC and PBKDF2. `depth` bounds the nesting of calls and `fuel` the iterations of `while` loops; the theorems
hold for every bound that is large enough, so no call runs out of either.
-/

namespace Verif.Props.Source
open Verif Verif.Source

/-! ### SHA-256 -/

section
open Verif.Sha256 Verif.Props.Sha256

/-- A call of a history as a call of the source. -/
def shaCall : Op → Fn × List Val
  | .update data => (.sha256_SHA256_update, [bytes data])
  | .digest => (.sha256_SHA256_digest, [])

def shaStep (T : Target) (s : SHA256) : Op → M (SHA256 × Val)
  | .update data => s.update T data >>= fun s => .ok (s, .unit)
  | .digest => s.digest T >>= fun r => .ok (r.1, bytes r.2.toList)

theorem sha_session (T : Target) (fuel depth : Nat) (hd : 8 ≤ depth) (ops : List Op) :
    session T fuel depth (.sha256_SHA256_new, []) (ops.map shaCall) = up (steps (shaStep T) SHA256.new ops) := by
  obtain ⟨d, rfl⟩ := Nat.exists_eq_add_of_le' hd
  rw [session, src_new]
  apply history_model T fuel (d + 8) encSha shaCall (shaStep T) (fun _ => True) (fun _ => True) _ (fun _ _ _ _ _ _ _ => trivial)
    _ trivial _ (fun _ _ => trivial)
  intro s x _ _
  cases x with
  | update data =>
    rw [shaCall, invoke, src_update, shaStep]
    cases s.update T data <;> rfl
  | digest =>
    rw [shaCall, invoke, src_digest, shaStep]
    cases s.digest T <;> rfl

/-- The answers of the abstract machine: nothing to `update`, the digest to `digest`. -/
def shaAnswers (bits : Nat) : List Op → Spec.Sha256.Machine → List Val
  | [], _ => []
  | .update data :: ops, m => .unit :: shaAnswers bits ops (m.absorb data)
  | .digest :: ops, m =>
    let (m', d) := m.finish (8 * m.total % 2 ^ bits)
    bytes d :: shaAnswers bits ops m'

theorem sha_steps (T : Target) (ops : List Op) (s : SHA256) (m : Spec.Sha256.Machine) (hR : Verif.Sha256.R T s m)
    (h : T.checks = false ∨ 8 * (m.total + fed ops) < 2 ^ T.bits) :
    steps (shaStep T) s ops = .ok (shaAnswers T.bits ops m) := by
  induction ops generalizing s m with
  | nil => rfl
  | cons op ops ih =>
    cases op with
    | update data =>
      obtain ⟨s', h1, hR'⟩ := update_R T data s m hR (h.imp id (fun h => by simp only [fed] at h; omega))
      simp only [steps, shaStep, shaAnswers, h1, ok_bind]
      rw [ih _ _ hR' (h.imp id (fun h => by simp only [fed] at h; simp only [Spec.Sha256.Machine.absorb]; omega))]
      rfl
    | digest =>
      obtain ⟨s', d, h1, hR', h3⟩ := digest_R T s m hR (h.imp id (fun h => by
        simp only [fed] at h
        have hm := Nat.mod_le m.total (2 ^ T.bits)
        omega))
      have hf : lengthField T m.total = 8 * m.total % 2 ^ T.bits := by
        rw [lengthField, Nat.mod_mul_mod, Nat.mul_comm]
      rw [hf] at hR' h3
      simp only [steps, shaStep, shaAnswers, h1, ok_bind, ← h3]
      rw [ih _ _ hR' (h.imp id (fun h => by simpa only [fed, Spec.Sha256.Machine.finish] using h))]
      rfl

/-- **C62.** Every history of `update` and `digest` calls on the source of `SHA256` gives the answers of the abstract
machine of FIPS 180-4. -/
theorem C62_history (T : Target) (fuel depth : Nat) (hd : 8 ≤ depth) (ops : List Op)
    (h : T.checks = false ∨ 8 * fed ops < 2 ^ T.bits) :
    session T fuel depth (.sha256_SHA256_new, []) (ops.map shaCall) = .ok (shaAnswers T.bits ops .start) := by
  rw [sha_session T fuel depth hd, sha_steps T ops _ _ (R_new T) (h.imp id fun h => by simpa [Spec.Sha256.Machine.start] using h)]
  rfl

/-- Three digests, on every target. -/
example (T : Target) (fuel : Nat) := C62_history T fuel 8 (Nat.le_refl 8) [.update [1, 2], .digest, .digest, .update [3], .digest]
  (.inr (by rcases T with ⟨_ | _, _ | _⟩ <;> decide))

theorem sha_chunks (T : Target) (chunks : List (List U8)) (s : SHA256) :
    steps (shaStep T) s (chunks.map .update ++ [.digest]) =
      (do let s ← chunks.foldlM (SHA256.update T) s
          let (_, d) ← s.digest T
          return d.toList) >>= fun d => .ok (chunks.map (fun _ => Val.unit) ++ [bytes d]) := by
  induction chunks generalizing s with
  | nil =>
    simp only [List.map_nil, List.nil_append, steps, shaStep, List.foldlM_nil]
    show _ = ((s.digest T >>= _) >>= _)
    cases s.digest T <;> rfl
  | cons c cs ih =>
    simp only [List.map_cons, List.cons_append, steps, shaStep, List.foldlM_cons]
    cases hu : s.update T c with
    | error p => rfl
    | ok s' =>
      simp only [ok_bind]
      rw [ih s']
      generalize (do let s ← cs.foldlM (SHA256.update T) s'; let (_, d) ← s.digest T; return d.toList : M (List U8)) = y
      cases y <;> rfl

theorem sha_chunks_session (T : Target) (fuel depth : Nat) (hd : 8 ≤ depth) (chunks : List (List U8)) :
    session T fuel depth (.sha256_SHA256_new, [])
        (chunks.map (fun c => (.sha256_SHA256_update, [bytes c])) ++ [(.sha256_SHA256_digest, [])]) =
      up (hashChunks T chunks >>= fun d => .ok (chunks.map (fun _ => Val.unit) ++ [bytes d])) := by
  have := sha_session T fuel depth hd (chunks.map .update ++ [.digest])
  rw [List.map_append, List.map_map] at this
  exact this.trans (by rw [sha_chunks]; rfl)

/-- **C62.** The source of `SHA256`: `new`, any number of `update` calls and one `digest` return the SHA-256 digest of
what was fed, when its bit length fits a `usize`. -/
theorem C62_source_sha256 (T : Target) (fuel depth : Nat) (hd : 8 ≤ depth) (chunks : List (List U8))
    (h : 8 * chunks.flatten.length < 2 ^ T.bits) :
    session T fuel depth (.sha256_SHA256_new, [])
        (chunks.map (fun c => (.sha256_SHA256_update, [bytes c])) ++ [(.sha256_SHA256_digest, [])]) =
      .ok (chunks.map (fun _ => Val.unit) ++ [bytes (Spec.Sha256.sha256 chunks.flatten)]) := by
  rw [sha_chunks_session T fuel depth hd, C01_sha256_correct T chunks h]
  rfl

/-- **C62.** Beyond that length the source panics when overflow checks are on. -/
theorem C62_source_panics (T : Target) (hc : T.checks = true) (fuel depth : Nat) (hd : 8 ≤ depth) (chunks : List (List U8)) :
    (∃ p, session T fuel depth (.sha256_SHA256_new, [])
        (chunks.map (fun c => (.sha256_SHA256_update, [bytes c])) ++ [(.sha256_SHA256_digest, [])]) = .error (.panic p)) ↔
      2 ^ T.bits ≤ 8 * chunks.flatten.length := by
  rw [← C03_length_limit_checked T hc chunks, sha_chunks_session T fuel depth hd]
  cases hashChunks T chunks with
  | ok d => simp [up, ok_bind]
  | error p => exact ⟨fun _ => ⟨p, rfl⟩, fun _ => ⟨p, rfl⟩⟩

/-- The hypotheses hold on every target: a message in three parts, one of them empty. -/
example (T : Target) (fuel : Nat) :
    session T fuel 8 (.sha256_SHA256_new, [])
        [(.sha256_SHA256_update, [bytes [0x61]]), (.sha256_SHA256_update, [bytes []]),
          (.sha256_SHA256_update, [bytes [0x62, 0x63]]), (.sha256_SHA256_digest, [])] =
      .ok [.unit, .unit, .unit, bytes (Spec.Sha256.sha256 [0x61, 0x62, 0x63])] :=
  C62_source_sha256 T fuel 8 (Nat.le_refl 8) [[0x61], [], [0x62, 0x63]]
    (by have := T.two_pow_ge; simp only [List.flatten_cons, List.flatten_nil, List.length_append, List.length_cons,
          List.length_nil]; omega)

/-- Messages beyond the limit exist on a 32-bit target. -/
example (fuel n : Nat) (hn : 2 ^ 29 ≤ n) :
    ∃ p, session ⟨.w32, true⟩ fuel 8 (.sha256_SHA256_new, [])
      [(.sha256_SHA256_update, [bytes (List.replicate n 0)]), (.sha256_SHA256_digest, [])] = .error (.panic p) :=
  (C62_source_panics ⟨.w32, true⟩ rfl fuel 8 (Nat.le_refl 8) [List.replicate n 0]).2 (by
    show 2 ^ 32 ≤ _
    simp only [List.flatten_cons, List.flatten_nil, List.length_append, List.length_replicate, List.length_nil]
    omega)

end

/-! ### HMAC -/

section
open Verif.Hmac Verif.Props.Hmac

/-- A call of a history as a call of the source. -/
def hmacCall : Op → Fn × List Val
  | .update data => (.hmac_HMac_update, [bytes data])
  | .digest => (.hmac_HMac_digest, [])

def hmacStep (T : Target) (s : HMac) : Op → M (HMac × Val)
  | .update data => s.update T data >>= fun s => .ok (s, .unit)
  | .digest => s.digest T >>= fun r => .ok (r.1, bytes r.2.toList)

theorem hmac_session (T : Target) (fuel depth : Nat) (hd : 8 ≤ depth) (key : List U8) (ops : List Op) :
    session T fuel depth (.hmac_HMac_new, [bytes key]) (ops.map hmacCall) =
      up (HMac.new T key >>= fun s => steps (hmacStep T) s ops) := by
  obtain ⟨d, rfl⟩ := Nat.exists_eq_add_of_le' hd
  rw [session, src_HMac_new]
  cases HMac.new T key with
  | error p => rfl
  | ok s =>
    apply history_model T fuel (d + 8) encHMac hmacCall (hmacStep T) (fun _ => True) (fun _ => True) _
      (fun _ _ _ _ _ _ _ => trivial) _ trivial _ (fun _ _ => trivial)
    intro s x _ _
    cases x with
    | update data =>
      rw [hmacCall, invoke, src_HMac_update, hmacStep]
      cases s.update T data <;> rfl
    | digest =>
      rw [hmacCall, invoke, src_HMac_digest, hmacStep]
      cases s.digest T <;> rfl

/-- The answers to a history in which `digest` returns `ds`, one after the other. -/
def hmacAnswers : List Op → List (List U8) → List Val
  | .update _ :: ops, ds => .unit :: hmacAnswers ops ds
  | .digest :: ops, d :: ds => bytes d :: hmacAnswers ops ds
  | _, _ => []

theorem hmac_steps (T : Target) (ops : List Op) (s : HMac) :
    steps (hmacStep T) s ops = run T ops s >>= fun ds => .ok (hmacAnswers ops ds) := by
  induction ops generalizing s with
  | nil => rfl
  | cons op ops ih =>
    cases op with
    | update data =>
      simp only [steps, hmacStep, run]
      cases s.update T data with
      | error p => rfl
      | ok s' =>
        simp only [ok_bind, ih s']
        cases run T ops s' <;> rfl
    | digest =>
      simp only [steps, hmacStep, run]
      cases s.digest T with
      | error p => rfl
      | ok r =>
        simp only [ok_bind, ih r.1]
        cases run T ops r.1 <;> rfl

/-- **C63.** Every history of `update` and `digest` calls on the source of `HMac` gives the answers of two abstract
machines of FIPS 180-4, an inner one and an outer one. -/
theorem C63_history (T : Target) (fuel depth : Nat) (hd : 8 ≤ depth) (key : List U8) (ops : List Op)
    (h : T.checks = false ∨ (8 * key.length < 2 ^ T.bits ∧ 8 * (64 + fed ops) < 2 ^ T.bits ∧
      8 * (64 + 32 * digests ops) < 2 ^ T.bits)) :
    let k := Spec.hmacKey (fun m => Spec.Sha256.sha256WithLength (8 * m.length % 2 ^ T.bits) m) key
    session T fuel depth (.hmac_HMac_new, [bytes key]) (ops.map hmacCall) =
      .ok (hmacAnswers ops (specRun T.bits ops
        (Spec.Sha256.Machine.start.absorb (k.map (· ^^^ 0x36)))
        (Spec.Sha256.Machine.start.absorb (k.map (· ^^^ 0x5c))))) := by
  intro k
  have := C45_history T key ops h
  rw [hmac_session T fuel depth hd]
  simp only [hmac_steps]
  have e : (HMac.new T key >>= fun s => run T ops s >>= fun ds => .ok (hmacAnswers ops ds)) =
      (do let hm ← HMac.new T key; run T ops hm) >>= fun ds => .ok (hmacAnswers ops ds) := by
    cases HMac.new T key <;> rfl
  rw [e, this]
  rfl

/-- Three digests, on every target. -/
example (T : Target) (fuel : Nat) := C63_history T fuel 8 (Nat.le_refl 8) [7] [.update [1, 2], .digest, .digest, .update [3], .digest]
  (.inr (by rcases T with ⟨_ | _, _ | _⟩ <;> decide))

theorem hmac_chunks (T : Target) (chunks : List (List U8)) (s : HMac) :
    steps (hmacStep T) s (chunks.map .update ++ [.digest]) =
      (do let s ← chunks.foldlM (HMac.update T) s
          let (_, d) ← s.digest T
          return d.toList) >>= fun d => .ok (chunks.map (fun _ => Val.unit) ++ [bytes d]) := by
  induction chunks generalizing s with
  | nil =>
    simp only [List.map_nil, List.nil_append, steps, hmacStep, List.foldlM_nil]
    show _ = ((s.digest T >>= _) >>= _)
    cases s.digest T <;> rfl
  | cons c cs ih =>
    simp only [List.map_cons, List.cons_append, steps, hmacStep, List.foldlM_cons]
    cases hu : s.update T c with
    | error p => rfl
    | ok s' =>
      simp only [ok_bind]
      rw [ih s']
      generalize (do let s ← cs.foldlM (HMac.update T) s'; let (_, d) ← s.digest T; return d.toList : M (List U8)) = y
      cases y <;> rfl

/-- **C63.** The source of `HMac`: `new` with a key, any number of `update` calls and one `digest` return the RFC 2104
HMAC-SHA256 of what was fed. -/
theorem C63_source_hmac (T : Target) (fuel depth : Nat) (hd : 8 ≤ depth) (key : List U8) (chunks : List (List U8))
    (hk : 8 * key.length < 2 ^ T.bits) (hm : 8 * (64 + chunks.flatten.length) < 2 ^ T.bits) :
    session T fuel depth (.hmac_HMac_new, [bytes key])
        (chunks.map (fun c => (.hmac_HMac_update, [bytes c])) ++ [(.hmac_HMac_digest, [])]) =
      .ok (chunks.map (fun _ => Val.unit) ++ [bytes (Spec.hmac Spec.Sha256.sha256 key chunks.flatten)]) := by
  have := hmac_session T fuel depth hd key (chunks.map .update ++ [.digest])
  rw [List.map_append, List.map_map] at this
  refine this.trans ?_
  have h := C06_hmac_correct T key chunks hk hm
  rw [macChunks] at h
  simp only [hmac_chunks]
  cases e : HMac.new T key with
  | error p => rw [e] at h; cases h
  | ok s =>
    rw [e, ok_bind] at h
    rw [ok_bind, h]
    rfl

/-- The hypotheses hold on every target: a key and a message in two parts. -/
example (T : Target) (fuel : Nat) :
    session T fuel 8 (.hmac_HMac_new, [bytes [1, 2, 3]])
        [(.hmac_HMac_update, [bytes [4]]), (.hmac_HMac_update, [bytes [5, 6]]), (.hmac_HMac_digest, [])] =
      .ok [.unit, .unit, bytes (Spec.hmac Spec.Sha256.sha256 [1, 2, 3] [4, 5, 6])] :=
  C63_source_hmac T fuel 8 (Nat.le_refl 8) [1, 2, 3] [[4], [5, 6]]
    (by have := T.two_pow_ge; simp only [List.length_cons, List.length_nil]; omega)
    (by have := T.two_pow_ge; simp only [List.flatten_cons, List.flatten_nil, List.length_append, List.length_cons,
          List.length_nil]; omega)

end

/-! ### PBKDF2 -/

/-- **C64.** The source of `pbkdf2_sha256` fills the output buffer with the key of RFC 2898. -/
theorem C64_source_pbkdf2 (T : Target) (fuel depth : Nat) (hd : 8 ≤ depth) (P S : List U8) (c : Nat) (out : List U8)
    (hc : 1 ≤ c) (hP : 8 * P.length < 2 ^ T.bits) (hS : 8 * (64 + S.length + 4) < 2 ^ T.bits)
    (hout : out.length ≤ T.isizeMax) (hlen : out.length ≤ (2 ^ 32 - 1) * 32) :
    call T crate fuel depth .pbkdf2_pbkdf2_sha256 [bytes P, bytes S, .usize c, bytes out] =
      .ok (.unit, [bytes (Spec.Pbkdf2.pbkdf2HmacSha256 P S c out.length)]) := by
  obtain ⟨d, rfl⟩ := Nat.exists_eq_add_of_le' hd
  rw [src_pbkdf2 T fuel (d + 1) P S out c hout, Props.Pbkdf2.C08_pbkdf2_correct T P S c out hc hP hS hout hlen]
  rfl

/-- **C64.** With overflow checks the source panics exactly when the password or the salt is too long. -/
theorem C64_source_panics (T : Target) (hc : T.checks = true) (fuel depth : Nat) (hd : 8 ≤ depth) (P S : List U8) (c : Nat)
    (out : List U8) (hout : out.length ≤ T.isizeMax) :
    (∃ p, call T crate fuel depth .pbkdf2_pbkdf2_sha256 [bytes P, bytes S, .usize c, bytes out] = .error (.panic p)) ↔
      out ≠ [] ∧ (2 ^ T.bits ≤ 8 * P.length ∨ 2 ^ T.bits ≤ 8 * (64 + S.length + 4)) := by
  obtain ⟨d, rfl⟩ := Nat.exists_eq_add_of_le' hd
  rw [src_pbkdf2 T fuel (d + 1) P S out c hout, ← Props.Pbkdf2.C08_pbkdf2_panics_iff T hc P S c out hout]
  cases Verif.Pbkdf2.pbkdf2_sha256 T P S c out with
  | ok d => simp [up, R.ok_bind]
  | error p => exact ⟨fun _ => ⟨p, rfl⟩, fun _ => ⟨p, rfl⟩⟩

/-- A salt of half a gigabyte makes the 32-bit debug build panic. -/
example (fuel : Nat) (S : List U8) (hS : S.length = 2 ^ 29) :
    ∃ p, call ⟨.w32, true⟩ crate fuel 8 .pbkdf2_pbkdf2_sha256 [bytes [1], bytes S, .usize 5, bytes [0, 0]] = .error (.panic p) :=
  (C64_source_panics ⟨.w32, true⟩ rfl fuel 8 (Nat.le_refl 8) [1] S 5 [0, 0] (by decide)).2 ⟨by decide, .inr (by rw [hS]; decide)⟩

/-- The hypotheses hold on every target for a 40-byte output (two blocks, the second one cut). -/
example (T : Target) (fuel : Nat) :
    call T crate fuel 8 .pbkdf2_pbkdf2_sha256 [bytes [1, 2], bytes [3], .usize 5, bytes (List.replicate 40 0)] =
      .ok (.unit, [bytes (Spec.Pbkdf2.pbkdf2HmacSha256 [1, 2] [3] 5 40)]) := by
  have := T.two_pow_ge
  have h := C64_source_pbkdf2 T fuel 8 (Nat.le_refl 8) [1, 2] [3] 5 (List.replicate 40 0) (by decide)
    (by simp only [List.length_cons, List.length_nil]; omega) (by simp only [List.length_cons, List.length_nil]; omega)
    (by rw [List.length_replicate]; rcases T.bits_cases with h | h <;> simp only [Target.isizeMax, h] <;> decide) (by simp)
  rwa [List.length_replicate] at h

end Verif.Props.Source
