import Verif.Proof.Hmac

/-! Properties C06, C07, C45: HMAC-SHA256. -/

namespace Verif.Props.Hmac
open Verif Verif.Sha256 Verif.Hmac

/-- Key an instance, feed the chunks to `update` one after the other, call `digest` once. -/
def macChunks (T : Target) (key : List U8) (chunks : List (List U8)) : M (List U8) := do
  let hm ← HMac.new T key
  let hm ← chunks.foldlM (HMac.update T) hm
  let (_, d) ← hm.digest T
  return d.toList

theorem macChunks_eq (T : Target) (key : List U8) (chunks : List (List U8)) (hk : Fits T key.length)
    (hf : Fits T (64 + chunks.flatten.length)) :
    macChunks T key chunks = .ok (Spec.hmac (hashOn T) key chunks.flatten) := by
  obtain ⟨hm, hm', d, h1, h2, h3⟩ := mac_eq T key chunks hk hf
  unfold macChunks
  rw [← bind_assoc, h1, ok_bind, h2, ok_bind, ← h3]
  rfl

/-- **C06.** Keying, feeding a message in any chunks and calling `digest` once returns HMAC-SHA256 of RFC 2104, without
panicking, whenever the bit lengths of the key and of block plus message fit a `usize`. -/
theorem C06_hmac_correct (T : Target) (key : List U8) (chunks : List (List U8)) (hk : 8 * key.length < 2 ^ T.bits)
    (hm : 8 * (64 + chunks.flatten.length) < 2 ^ T.bits) :
    macChunks T key chunks = .ok (Spec.hmacSha256 key chunks.flatten) := by
  rw [macChunks_eq T key chunks (.inr hk) (.inr hm)]
  have hkey : Spec.hmacKey (hashOn T) key = Spec.hmacKey Spec.Sha256.sha256 key := by
    simp only [Spec.hmacKey, hashOn_eq T key hk]
  have hl := hmacKey_length T key
  rw [Spec.hmacSha256, Spec.hmac, Spec.hmac]
  simp only [← hkey]
  rw [hashOn_eq T, hashOn_eq T]
  · simpa [hl] using hm
  · have := T.two_pow_ge
    simp [hl]
    omega

/-- The hypotheses of `C06_hmac_correct` hold on every target, with a key longer than a block. -/
example (T : Target) (b : U8) : macChunks T (List.replicate 65 b) [[1], [2, 3]] =
    .ok (Spec.hmacSha256 (List.replicate 65 b) [1, 2, 3]) :=
  C06_hmac_correct T _ _ (by have := T.two_pow_ge; rw [List.length_replicate]; omega)
    (by
      have := T.two_pow_ge
      simp only [List.flatten_cons, List.flatten_nil, List.length_append, List.length_cons, List.length_nil]
      omega)

/-- **C06.** Without overflow checks there is no length limit for panics: the result is HMAC over SHA-256 with the length
field taken modulo the `usize` range. -/
theorem C06_hmac_unchecked (T : Target) (hc : T.checks = false) (key : List U8) (chunks : List (List U8)) :
    macChunks T key chunks =
      .ok (Spec.hmac (fun m => Spec.Sha256.sha256WithLength (8 * m.length % 2 ^ T.bits) m) key chunks.flatten) :=
  macChunks_eq T key chunks (.inl hc) (.inl hc)

/-- A key of two blocks. -/
example := C06_hmac_unchecked ⟨.w32, false⟩ rfl (List.replicate 128 3) [[1], [], [2, 3]]

/-- **C07.** Appending zeros to a key, as long as it fits a block, does not change the keyed instance. -/
theorem C07_zero_extended_key (T : Target) (key : List U8) (n : Nat) (h : key.length + n ≤ 64) :
    HMac.new T (key ++ List.replicate n 0) = HMac.new T key := by
  have e : ∀ k : List U8, k.length ≤ 64 → HMac.new T k = HMac.newShort T k := by
    intro k hk
    rw [HMac.new, if_neg (by simp only [BLOCK_SIZE]; omega)]
  rw [e _ (by simpa using h), e _ (by omega), newShort_eq _ _ (by simpa using h), newShort_eq _ _ (by omega)]
  have : pad64 (key ++ List.replicate n 0) = pad64 key := by
    simp only [pad64, List.append_assoc, List.length_append, List.length_replicate, List.replicate_append_replicate]
    congr 2
    omega
  rw [this]

example (T : Target) : HMac.new T [1, 2, 0, 0, 0] = HMac.new T [1, 2] :=
  C07_zero_extended_key T [1, 2] 3 (by decide)

/-- **C07.** A key longer than a block acts as its SHA-256 hash. -/
theorem C07_long_key (T : Target) (key : List U8) (h : 64 < key.length) (hb : 8 * key.length < 2 ^ T.bits) :
    HMac.new T key = HMac.new T (Spec.Sha256.sha256 key) := by
  have hfit : Fits T key.length := .inr hb
  obtain ⟨s, h1, hs⟩ := (Fed.new T).update key (hfit.mono (by simp))
  obtain ⟨s', d, h2, hd⟩ := hs.digest (hfit.mono (by simp))
  rw [HMac.new, if_pos (by simpa [BLOCK_SIZE] using h), HMac.new, if_neg (by simp [BLOCK_SIZE])]
  simp only [h1, ok_bind, h2, hd]
  rw [List.nil_append, hashOn_eq T key hb]

example (T : Target) (b : U8) :
    HMac.new T (List.replicate 65 b) = HMac.new T (Spec.Sha256.sha256 (List.replicate 65 b)) :=
  C07_long_key T _ (by rw [List.length_replicate]; decide)
    (by have := T.two_pow_ge; rw [List.length_replicate]; omega)

/-- **C07.** Keys of at most 64 bytes that differ after zero padding put different blocks in front of the message, in the
inner and in the outer hash: the instance is a pair of hashers that have absorbed the padded key xor `0x36` and
xor `0x5c`, and both blocks determine the padded key. -/
theorem C07_distinct_keys (T : Target) (key : List U8) (h : key.length ≤ 64) :
    (HMac.new T key = do
      let inner ← SHA256.new.update T ((key ++ List.replicate (64 - key.length) 0).map (· ^^^ 0x36))
      let outer ← SHA256.new.update T ((key ++ List.replicate (64 - key.length) 0).map (· ^^^ 0x5c))
      return { inner, outer }) ∧
    ∀ (c : U8) (a b : List U8), a.map (· ^^^ c) = b.map (· ^^^ c) → a = b := by
  constructor
  · rw [HMac.new, if_neg (by simp only [BLOCK_SIZE]; omega), newShort_eq _ _ h]
    rfl
  · intro c a b hab
    have := congrArg (List.map (· ^^^ c)) hab
    simpa [List.map_map, Function.comp_def, BitVec.xor_assoc] using this

/-- A key of less than a block. -/
example (T : Target) := C07_distinct_keys T [1, 2, 3] (by decide)

end Verif.Props.Hmac

namespace Verif.Hmac.HMac
open Verif.Sha256

/-- The recursive equation of `HMac::new` in the source (src/hmac.rs:72-76) holds of the model. -/
theorem new_rec (T : Target) (key : List U8) (h : key.length > BLOCK_SIZE) :
    HMac.new T key = (do
      let tmp ← SHA256.new.update T key
      let (_, d) ← tmp.digest T
      HMac.new T d.toList) := by
  rw [HMac.new, if_pos h]
  have : ∀ d : Vector U8 32, HMac.new T d.toList = HMac.newShort T d.toList := by
    intro d
    rw [HMac.new, if_neg (by simp [BLOCK_SIZE])]
  simp only [this]

end Verif.Hmac.HMac

namespace Verif.Props.Hmac
open Verif Verif.Sha256 Verif.Hmac
open Spec.Sha256 (Machine)

/-! ### C45: histories -/

/-- A call on an instance. -/
inductive Op where
  | update (data : List U8)
  | digest

/-- Run a history on a model instance, collecting the returned digests. -/
def run (T : Target) : List Op → HMac → M (List (List U8))
  | [], _ => return []
  | .update data :: ops, s => do
    let s ← s.update T data
    run T ops s
  | .digest :: ops, s => do
    let (s, d) ← s.digest T
    let ds ← run T ops s
    return d.toList :: ds

/-- Run a history on two abstract hashers: `digest` finishes the inner one, gives the result to the outer one and finishes
it, and neither is reset. -/
def specRun (bits : Nat) : List Op → Machine → Machine → List (List U8)
  | [], _, _ => []
  | .update data :: ops, i, o => specRun bits ops (i.absorb data) o
  | .digest :: ops, i, o =>
    let (i', d) := i.finish (8 * i.total % 2 ^ bits)
    let o := o.absorb d
    let (o', out) := o.finish (8 * o.total % 2 ^ bits)
    out :: specRun bits ops i' o'

/-- Number of bytes fed by a history. -/
def fed : List Op → Nat
  | [] => 0
  | .update data :: ops => data.length + fed ops
  | .digest :: ops => fed ops

/-- Number of `digest` calls in a history. -/
def digests : List Op → Nat
  | [] => 0
  | .update _ :: ops => digests ops
  | .digest :: ops => digests ops + 1

theorem finish_length (m : Machine) (f : Nat) : (m.finish f).2.length = 32 := output_length _

theorem run_eq (T : Target) (ops : List Op) (s : HMac) (i o : Machine) (hi : R T s.inner i) (ho : R T s.outer o)
    (h1 : Fits T (i.total + fed ops)) (h2 : Fits T (o.total + 32 * digests ops)) :
    run T ops s = .ok (specRun T.bits ops i o) := by
  induction ops generalizing s i o with
  | nil => rfl
  | cons op ops ih =>
    cases op with
    | update data =>
      obtain ⟨s', e1, hR'⟩ := update_R T data s.inner i hi (h1.imp id (fun h => by simp only [fed] at h; omega))
      simp only [run, specRun, HMac.update, e1, ok_bind, pure_eq_ok]
      exact ih { s with inner := s' } _ _ hR' ho (h1.mono (by simp only [fed, Machine.absorb]; omega)) h2
    | digest =>
      obtain ⟨s', d, e1, hR', hd⟩ := digest_R T s.inner i hi (h1.imp id (fun h => by
        simp only [fed] at h
        have hm := Nat.mod_le i.total (2 ^ T.bits)
        omega))
      rw [lengthField_eq] at hR' hd
      have hdl : d.toList.length = 32 := by simp
      obtain ⟨o1, e2, hR2⟩ := update_R T d.toList s.outer o ho (h2.imp id (fun h => by
        simp only [digests] at h; omega))
      obtain ⟨o2, out, e3, hR3, hout⟩ := digest_R T o1 _ hR2 (h2.imp id (fun h => by
        simp only [digests] at h
        have hm := Nat.mod_le (o.absorb d.toList).total (2 ^ T.bits)
        simp only [Machine.absorb] at hm ⊢
        omega))
      rw [lengthField_eq] at hR3 hout
      simp only [run, specRun, HMac.digest, e1, ok_bind, e2, e3, pure_eq_ok, ← hd]
      rw [ih ⟨s', o2⟩ _ _ hR' hR3]
      · simp only [ok_bind, hout]
      · simpa only [fed, Machine.finish] using h1
      · refine h2.mono ?_
        simp only [digests, Machine.finish, Machine.absorb]
        omega

/-- **C45.** Every history of `update` and `digest` calls on an `HMac` returns what two abstract hashers return, neither of
which is ever reset (no panic without overflow checks, or while all bit lengths fit a `usize`). -/
theorem C45_history (T : Target) (key : List U8) (ops : List Op)
    (h : T.checks = false ∨ (8 * key.length < 2 ^ T.bits ∧ 8 * (64 + fed ops) < 2 ^ T.bits ∧
      8 * (64 + 32 * digests ops) < 2 ^ T.bits)) :
    let k := Spec.hmacKey (fun m => Spec.Sha256.sha256WithLength (8 * m.length % 2 ^ T.bits) m) key
    (do let hm ← HMac.new T key; run T ops hm) =
      .ok (specRun T.bits ops
        (Machine.start.absorb (k.map (· ^^^ 0x36)))
        (Machine.start.absorb (k.map (· ^^^ 0x5c)))) := by
  have hk : Fits T key.length := h.imp id (fun h => h.1)
  have h1 : Fits T (64 + fed ops) := h.imp id (fun h => h.2.1)
  have h2 : Fits T (64 + 32 * digests ops) := h.imp id (fun h => h.2.2)
  obtain ⟨hm, e, hK⟩ := new_keyed T key hk
  have hl := hmacKey_length T key
  intro k
  rw [e, ok_bind]
  apply run_eq
  · have := hK.inner
    rwa [List.append_nil] at this
  · exact hK.outer
  · rw [absorb_start_total, List.length_map]
    exact hl ▸ h1
  · rw [absorb_start_total, List.length_map]
    exact hl ▸ h2

/-- A history with an empty update and three digests, on every target. -/
example (T : Target) := C45_history T [1, 2, 3] [.update [4, 5], .digest, .update [], .digest, .update [6], .digest] (.inr (by
  rcases T with ⟨_ | _, _ | _⟩ <;> decide))

/-- **C45.** A history with two `digest` calls: the first returns the MAC, the second does not. -/
theorem C45_second_digest_differs : ∃ d1 d2,
    (do let hm ← HMac.new ⟨.w64, true⟩ [1, 2, 3]; run ⟨.w64, true⟩ [.update [4], .digest, .digest] hm) = .ok [d1, d2] ∧
    macChunks ⟨.w64, true⟩ [1, 2, 3] [[4]] = .ok d1 ∧ d1 ≠ d2 :=
  ⟨Spec.beBytes 32 0xcf7e9ff7ee7f7b0a17f74300ce4b5fea54877926cc07ac815f0aa74ffe341c19,
    Spec.beBytes 32 0xb6cc4f694135f0cbd6f84688959cee1126eb500a030c94f4ab3067f8b8ab03e, by decide +kernel, by decide +kernel, by decide +kernel⟩

end Verif.Props.Hmac
