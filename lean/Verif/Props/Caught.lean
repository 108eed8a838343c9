import Verif.Proof.Caught
import Verif.Props.CbcHistory

/-! Property C130: what a `Cipher` does after a panic that was caught. -/

namespace Verif.Props.Caught
open Verif Verif.Aes Verif.Pkcs7 Verif.AesCbc Verif.Growing Spec.Cbc
open Verif.Props.Aes (Holds Matches)
open Verif.Growing.Caught (U)

/-- One call on a `Cipher`, with the panic as an answer; the unit result of `init` is shown as no bytes. -/
def step (T : Target) (c : Growing.Cipher) : Call → Except Panic (Except AESError (List U8)) × Growing.Cipher
  | .init key => ((Caught.Cipher.init T key c).1.map (·.map fun _ => []), (Caught.Cipher.init T key c).2)
  | .write b => ((Caught.Cipher.write T std b c).1.map (·.map (·.data)), (Caught.Cipher.write T std b c).2)
  | .flush => ((Caught.Cipher.flush T std c).1.map (·.map (·.data)), (Caught.Cipher.flush T std c).2)

/-- A history of calls on the same `Cipher`, which goes on after panics, and the answers. -/
def run (T : Target) : Growing.Cipher → List Call → List (Except Panic (Except AESError (List U8)))
  | _, [] => []
  | c, x :: xs => (step T c x).1 :: run T (step T c x).2 xs

/-- A new `Cipher` and a history of calls on it. -/
def session (T : Target) (iv : Vector U8 16) (calls : List Call) : M (List (Except Panic (Except AESError (List U8)))) := do
  let c ← Growing.Cipher.new T iv
  return run T c calls

/-- An answer as the specification names it: nothing for a panic. -/
def shown : Except Panic (Except AESError (List U8)) → Option (Except Err (List U8))
  | .ok r => some (r.mapError errA)
  | .error _ => none

/-- The instance is in the abstract state. -/
structure Inv (T : Target) (c : Growing.Cipher) (e : Enc) : Prop where
  key : Matches c.aes e.key
  iv : c.iv.toList = e.iv
  size : c.pad.block_size = 16
  pending : c.pad.storage.data = e.pending
  good : Good T c.pad.storage
  pow : Pow c.pad.storage
  len : e.pending.length < 16 ∨ e.pending.length = limit T

/-- `write`, whatever is pending. -/
theorem write_spec (T : Target) (c : AesCbc.Cipher) (e : Enc) (hk : Matches c.aes e.key) (hiv : c.iv.toList = e.iv) (hp : c.pad = ⟨16, e.pending⟩)
    (b : List U8) : ∃ c' r, c.write T b = .ok (c', r) ∧ CMatches c' (e.step (.write b)).1 ∧ r.mapError errA = (e.step (.write b)).2 := by
  by_cases hs : (e.pending ++ b).length < 16
  · exact cstep_spec T c e ⟨hk, hiv, hp, by rw [List.length_append] at hs; omega⟩ (.write b)
  · rw [Enc.step, if_neg hs]
    cases hkey : e.key with
    | none =>
      rw [hkey] at hk
      exact ⟨_, _, cipher_write_none T c _ hk hp b hs, ⟨by simpa [hkey] using hk, hiv, rfl, tail_length _⟩, rfl⟩
    | some key =>
      rw [hkey] at hk
      obtain ⟨iv, h1, h2⟩ := cipher_write_ok T c key _ hk hp b
      refine ⟨_, _, h1, ⟨by simpa [hkey] using hk, ?_, rfl, tail_length _⟩, ?_⟩
      · simp only [lastBlock]
        rw [blocks_encrypt, h2, hiv]
      · rw [hiv]; rfl

theorem step_spec (T : Target) (c : Growing.Cipher) (e : Enc) (h : Inv T c e) (x : Call) :
    Inv T (step T c x).2 (e.stepLimited (2 ^ (T.bits - 2)) T.checks x).1 ∧
      shown (step T c x).1 = (e.stepLimited (2 ^ (T.bits - 2)) T.checks x).2 := by
  obtain ⟨aes, ⟨bsz, v⟩, iv⟩ := c
  have hsize : bsz = 16 := h.size
  subst hsize
  have hdata : v.data = e.pending := h.pending
  have hlim := limit_large T
  have him := isizeMax_eq T
  have hrel : CRel T ⟨aes, ⟨16, v⟩, iv⟩ ⟨aes, ⟨16, v.data⟩, iv⟩ := ⟨rfl, rfl, rfl, rfl, h.good⟩
  cases x with
  | init key =>
    by_cases hv : validKey key
    · obtain ⟨a, h1, h2⟩ := Verif.Props.Aes.init_valid T aes key hv
      have hs : Caught.Cipher.init T key ⟨aes, ⟨16, v⟩, iv⟩ = (.ok (.ok ()), ⟨a, ⟨16, v⟩, iv⟩) := by
        unfold Caught.Cipher.init
        rw [Caught.self_bind, Caught.ofM_ok _ _ _ _ h1]
        rfl
      rw [Enc.stepLimited, Enc.step, if_pos hv, step, hs]
      exact ⟨⟨h2, h.iv, rfl, h.pending, h.good, h.pow, h.len⟩, rfl⟩
    · have hs : Caught.Cipher.init T key ⟨aes, ⟨16, v⟩, iv⟩ = (.ok (.error .InvalidKeySize), ⟨aes, ⟨16, v⟩, iv⟩) := by
        unfold Caught.Cipher.init
        rw [Caught.self_bind, Caught.ofM_ok _ _ _ _ (Verif.Props.Aes.init_invalid T aes key hv)]
        rfl
      rw [Enc.stepLimited, Enc.step, if_neg hv, step, hs]
      exact ⟨h, rfl⟩
  | write b =>
    rw [Enc.stepLimited]
    by_cases hb : 2 ^ (T.bits - 2) < e.pending.length + b.length
    · rw [if_pos hb]
      have hf := Caught.pushes_full T b ⟨16, v⟩ h.good h.pow (by simp only [hdata]; exact hb)
      have hs : Caught.Cipher.write T std b ⟨aes, ⟨16, v⟩, iv⟩ = (.error .capacity, ⟨aes, ⟨16, ⟨(v.data ++ b).take (limit T), limit T⟩⟩, iv⟩) := by
        unfold Caught.Cipher.write
        refine Caught.bind_err _ _ _ _ _ ?_
        rw [Caught.Cipher.onPad]
        have : Caught.Pad.write T std b ⟨16, v⟩ = _ := Caught.bind_err _ _ _ _ _ hf
        rw [this]
      rw [step, hs]
      have hl : ((v.data ++ b).take (limit T)).length = limit T := by
        rw [List.length_take, List.length_append, hdata]
        exact Nat.min_eq_left (Nat.le_of_lt hb)
      refine ⟨⟨h.key, h.iv, rfl, by show _ = _; rw [hdata]; rfl, ⟨Nat.le_of_eq hl, ?_, ?_⟩, ⟨_, rfl⟩, .inr ?_⟩, rfl⟩
      · show 32 ≤ limit T
        omega
      · show limit T ≤ _
        omega
      · rw [← hdata]; exact hl
    · rw [if_neg hb]
      have hb' : v.data.length + b.length ≤ limit T := by rw [hdata]; exact Nat.not_lt.1 hb
      obtain ⟨c0', r0, s1, s2, s3⟩ := write_spec T ⟨aes, ⟨16, v.data⟩, iv⟩ e h.key h.iv (by rw [hdata]) b
      rcases pushAll_spec T std b v h.good with ⟨cap, h1, h2, h3, h4⟩ | ⟨_, h2⟩
      · obtain ⟨r', w1, w2⟩ := cipher_write_grow T std ⟨aes, ⟨16, v⟩, iv⟩ _ c0' b r0 cap hrel h1 h2 s1
        rw [step, Caught.cipher_write_erase T std b _ _ _ w1]
        have hlen : c0'.pad.storage.length < 16 := by rw [s2.2.2.1]; exact s2.2.2.2
        have h32 : 32 ≤ cap := h2.room
        refine ⟨⟨s2.1, s2.2.1, rfl, by rw [s2.2.2.1], ⟨?_, h32, h2.max⟩, ?_, .inl s2.2.2.2⟩, ?_⟩
        · show c0'.pad.storage.length ≤ cap
          omega
        · obtain ⟨k, hk⟩ := pushAll_pow T b v _ h.good h.pow h1
          exact ⟨k, hk⟩
        · show some ((r'.map (·.data)).mapError errA) = _
          rw [w2, s3]
      · omega
  | flush =>
    rw [Enc.stepLimited]
    by_cases hl : 16 ≤ e.pending.length
    · rw [if_pos hl]
      have hll : v.data.length = limit T := by rw [hdata]; rcases h.len with h | h <;> omega
      by_cases hc : T.checks = true
      · have hsub : T.sub 16 v.data.length = .error .overflow := by
          rw [Target.sub, if_neg (by omega), if_pos hc]
        have hs : Caught.Cipher.flush T std ⟨aes, ⟨16, v⟩, iv⟩ = (.error .overflow, ⟨aes, ⟨16, v⟩, iv⟩) := by
          unfold Caught.Cipher.flush
          refine Caught.bind_err _ _ _ _ _ ?_
          rw [Caught.Cipher.onPad]
          have : Caught.Pad.flush T std ⟨16, v⟩ = (.error .overflow, ⟨16, v⟩) := by
            unfold Caught.Pad.flush
            rw [Caught.self_bind]
            refine Caught.bind_err _ _ _ _ _ ?_
            rw [Caught.ofM, hsub]
          rw [this]
        rw [step, hs, if_pos hc]
        exact ⟨h, rfl⟩
      · obtain ⟨len, hsub⟩ : ∃ len, T.sub 16 v.data.length = .ok len := by
          rw [Target.sub, if_neg (by omega), if_neg hc]
          exact ⟨_, rfl⟩
        have hs : Caught.Cipher.flush T std ⟨aes, ⟨16, v⟩, iv⟩ = (.error .sliceLen, ⟨aes, ⟨16, ⟨[], v.cap⟩⟩, iv⟩) := by
          unfold Caught.Cipher.flush
          have h1 : Caught.Pad.flush T std ⟨16, v⟩ = (.ok ⟨v.data, v.data.length⟩, ⟨16, ⟨[], v.cap⟩⟩) := by
            unfold Caught.Pad.flush
            rw [Caught.self_bind, Caught.ofM_ok _ _ _ _ hsub]
            simp only [show 16 - v.data.length = 0 by omega, List.replicate_zero]
            rw [Caught.bind_ok _ _ _ _ _ (Caught.pushes_ok T std [] ⟨16, v⟩ v rfl), Caught.self_bind,
              Caught.ofM_ok _ _ _ _ (ofSlice_ok T v.data (by omega)), Caught.assign_bind]
            rfl
          refine (Caught.bind_ok (σ := Growing.Cipher) _ _ ⟨aes, ⟨16, v⟩, iv⟩ ⟨aes, ⟨16, ⟨[], v.cap⟩⟩, iv⟩ _ (by rw [Caught.Cipher.onPad, h1])).trans ?_
          unfold Caught.Cipher.encrypt_block
          rw [Caught.self_bind]
          refine Caught.bind_err _ _ _ _ _ ?_
          rw [Caught.ofM, arrayFromSlice, dif_neg (by show ¬ v.data.length = 16; omega)]
        rw [step, hs, if_neg hc]
        exact ⟨⟨h.key, h.iv, rfl, rfl, ⟨by simp, h.good.room, h.good.max⟩, h.pow, .inl (by simp)⟩, rfl⟩
    · rw [if_neg hl]
      have hm : CMatches ⟨aes, ⟨16, v.data⟩, iv⟩ e := ⟨h.key, h.iv, by rw [hdata], Nat.not_le.1 hl⟩
      obtain ⟨c0', r0, s1, s2, s3⟩ := cstep_spec T _ e hm .flush
      obtain ⟨r', w1, w2⟩ := cipher_flush_grow T std ⟨aes, ⟨16, v⟩, iv⟩ _ c0' r0 hrel (by rw [hdata]; exact Nat.not_le.1 hl) s1
      rw [step, Caught.cipher_flush_erase T std _ _ _ w1]
      have hnil : (e.step .flush).1.pending = [] := by rw [Enc.step]; cases e.key <;> rfl
      refine ⟨⟨s2.1, s2.2.1, rfl, hnil.symm, ⟨by simp, h.good.room, h.good.max⟩, h.pow, .inl s2.2.2.2⟩, ?_⟩
      show some ((r'.map (·.data)).mapError errA) = _
      rw [w2, s3]

/-- **C130.** Whatever calls are made on a `Cipher`, and however often they panic and the panic is caught, the answers and panics are those of the
encryptor with a buffer of a quarter of the address space. -/
theorem C130_history (T : Target) (iv : Vector U8 16) (calls : List Call) :
    ∃ answers, session T iv calls = .ok answers ∧
      answers.map shown = Enc.runLimited (2 ^ (T.bits - 2)) T.checks ⟨none, iv.toList, []⟩ calls := by
  obtain ⟨c, h1, ⟨c0, h2, h3⟩, h4⟩ := cnew_inv T iv
  refine ⟨run T c calls, by rw [session, h1]; rfl, ?_⟩
  have hinv : Inv T c ⟨none, iv.toList, []⟩ := by
    refine ⟨by rw [h2.aes]; exact h3.1, by rw [h2.iv]; exact h3.2.1, h2.size, ?_, h2.good, ⟨5, h4⟩, .inl (by simp)⟩
    have := h2.pad
    rw [h3.2.2.1] at this
    injection this with _ h; exact h.symm
  clear h1 h2 h3 h4
  generalize (⟨none, iv.toList, []⟩ : Enc) = e at hinv
  induction calls generalizing c e with
  | nil => rfl
  | cons x xs ih =>
    obtain ⟨h1, h2⟩ := step_spec T c e hinv x
    rw [run, List.map_cons, Enc.runLimited, h2, ih _ _ h1]

/-- One message, as the encryptor answers. -/
theorem enc_message (iv : Vector U8 16) (key : List U8) (hk : validKey key) (m : List U8) :
    ∃ o1 o2, (Enc.run ⟨some key, iv.toList, []⟩ [.write m, .flush]).2 = [.ok o1, .ok o2] ∧ o1 ++ o2 = encrypt key iv.toList (pkcs7 16 m) := by
  obtain ⟨c, rs, last, h1, h2, h3⟩ := Verif.Props.Cbc.C28_cbc_encrypt ⟨.w64, true⟩ iv key hk [m]
  obtain ⟨c', rs', h4, h5⟩ := Verif.Props.CbcHistory.C43_cipher ⟨.w64, true⟩ iv [.init key, .write m, .flush]
  have h6 : AesCbc.crun ⟨.w64, true⟩ (AesCbc.Cipher.new iv) [.init key, .write m, .flush] = _ := h1
  rw [h4] at h6
  cases h6
  match rs, h2 with
  | [o1], _ =>
    refine ⟨o1, last, ?_, by simpa using h3⟩
    have hi : Enc.step ⟨none, iv.toList, []⟩ (.init key) = (⟨some key, iv.toList, []⟩, .ok []) := by rw [Enc.step, if_pos hk]
    rw [Enc.run, hi] at h5
    exact (List.cons.inj h5).2.symm

theorem tail_len (e : Enc) (b : List U8) : (e.step (.write b)).1.pending.length < 16 := by
  rw [Enc.step]
  split
  · assumption
  · split <;> exact tail_length _

/-- The answers to `write` and `flush` when there is room. -/
theorem limited_message (limit : Nat) (strict : Bool) (e : Enc) (b : List U8) (h : e.pending.length + b.length ≤ limit) :
    e.runLimited limit strict [.write b, .flush] = (e.run [.write b, .flush]).2.map some := by
  rw [Enc.runLimited, Enc.stepLimited, if_neg (Nat.not_lt.2 h), Enc.runLimited, Enc.stepLimited, if_neg (Nat.not_le.2 (tail_len e b))]
  rfl

/-- **C130.** A `write` that was too large, and whose panic was caught, has taken the first quarter of the address space of it. With an empty `write` after it
and `flush`, no call fails any more, and the ciphertext is that of this part: the rest is missing. -/
theorem C130_cut (T : Target) (iv : Vector U8 16) (key : List U8) (hk : key.length = 16 ∨ key.length = 24 ∨ key.length = 32) (b : List U8)
    (hb : 2 ^ (T.bits - 2) < b.length) :
    ∃ answers o1 o2, session T iv [.init key, .write b, .write [], .flush] = .ok answers ∧
      answers.map shown = [some (.ok []), none, some (.ok o1), some (.ok o2)] ∧
      o1 ++ o2 = encrypt key iv.toList (pkcs7 16 (b.take (2 ^ (T.bits - 2)))) := by
  obtain ⟨answers, h1, h2⟩ := C130_history T iv [.init key, .write b, .write [], .flush]
  obtain ⟨o1, o2, h3, h4⟩ := enc_message iv key hk (b.take (2 ^ (T.bits - 2)))
  refine ⟨answers, o1, o2, h1, ?_, h4⟩
  have hi : Enc.step ⟨none, iv.toList, []⟩ (.init key) = (⟨some key, iv.toList, []⟩, .ok []) := by rw [Enc.step, if_pos (by exact hk)]
  rw [h2, Enc.runLimited, Enc.stepLimited, hi, Enc.runLimited, Enc.stepLimited, if_pos (by simpa using hb)]
  dsimp only
  rw [limited_message _ _ _ _ (by simp; omega), List.nil_append]
  have e : Enc.run ⟨some key, iv.toList, b.take (2 ^ (T.bits - 2))⟩ [.write [], .flush] =
      Enc.run ⟨some key, iv.toList, []⟩ [.write (b.take (2 ^ (T.bits - 2))), .flush] := by
    simp only [Enc.run, Enc.step, List.append_nil, List.nil_append]
  rw [e, h3]
  rfl

/-- **C130.** Without overflow checks a `flush` after such a `write` panics too, but only after it has emptied the buffer. From then on the `Cipher` works as if the
large `write` had never been. -/
theorem C130_lost (T : Target) (hc : T.checks = false) (iv : Vector U8 16) (key : List U8) (hk : key.length = 16 ∨ key.length = 24 ∨ key.length = 32)
    (b b' : List U8) (hb : 2 ^ (T.bits - 2) < b.length) (hb' : b'.length ≤ 2 ^ (T.bits - 2)) :
    ∃ answers o1 o2, session T iv [.init key, .write b, .flush, .write b', .flush] = .ok answers ∧
      answers.map shown = [some (.ok []), none, none, some (.ok o1), some (.ok o2)] ∧ o1 ++ o2 = encrypt key iv.toList (pkcs7 16 b') := by
  obtain ⟨answers, h1, h2⟩ := C130_history T iv [.init key, .write b, .flush, .write b', .flush]
  obtain ⟨o1, o2, h3, h4⟩ := enc_message iv key hk b'
  refine ⟨answers, o1, o2, h1, ?_, h4⟩
  have hi : Enc.step ⟨none, iv.toList, []⟩ (.init key) = (⟨some key, iv.toList, []⟩, .ok []) := by rw [Enc.step, if_pos (by exact hk)]
  have hlim : 1024 ≤ 2 ^ (T.bits - 2) := limit_large T
  rw [h2, Enc.runLimited, Enc.stepLimited, hi, Enc.runLimited, Enc.stepLimited, if_pos (by simpa using hb), Enc.runLimited, Enc.stepLimited,
    if_pos (by simp; omega), if_neg (by rw [hc]; decide)]
  dsimp only
  rw [limited_message _ _ _ _ (by simpa using hb'), h3]
  rfl

/-- **C130.** With overflow checks every `flush` after such a `write` panics, however often it is tried. -/
theorem C130_stuck (T : Target) (hc : T.checks = true) (iv : Vector U8 16) (key : List U8) (hk : key.length = 16 ∨ key.length = 24 ∨ key.length = 32)
    (b : List U8) (hb : 2 ^ (T.bits - 2) < b.length) (n : Nat) :
    ∃ answers, session T iv (.init key :: .write b :: List.replicate n .flush) = .ok answers ∧
      answers.map shown = some (.ok []) :: List.replicate (n + 1) none := by
  obtain ⟨answers, h1, h2⟩ := C130_history T iv (.init key :: .write b :: List.replicate n .flush)
  refine ⟨answers, h1, ?_⟩
  have hi : Enc.step ⟨none, iv.toList, []⟩ (.init key) = (⟨some key, iv.toList, []⟩, .ok []) := by rw [Enc.step, if_pos (by exact hk)]
  have hlim : 1024 ≤ 2 ^ (T.bits - 2) := limit_large T
  rw [h2, Enc.runLimited, Enc.stepLimited, hi, Enc.runLimited, Enc.stepLimited, if_pos (by simpa using hb), hc]
  dsimp only
  rw [List.replicate_succ]
  congr 2
  have hl : 16 ≤ (([] ++ b : List U8).take (2 ^ (T.bits - 2))).length := by simp; omega
  generalize ([] ++ b : List U8).take (2 ^ (T.bits - 2)) = p at hl
  induction n generalizing answers with
  | zero => rfl
  | succ n ih =>
    rw [List.replicate_succ, List.replicate_succ, Enc.runLimited, Enc.stepLimited, if_pos hl, if_pos rfl]
    congr 1
    obtain ⟨answers, h1, h2⟩ := C130_history T iv (.init key :: .write b :: List.replicate n .flush)
    exact ih answers h1 h2

/-- On a 32-bit target, a gigabyte and one byte. -/
example (iv : Vector U8 16) (b : List U8) (hb : b.length = 2 ^ 30 + 1) :
    ∃ answers o1 o2, session ⟨.w32, false⟩ iv [.init (List.replicate 16 1), .write b, .flush, .write [7], .flush] = .ok answers ∧
      answers.map shown = [some (.ok []), none, none, some (.ok o1), some (.ok o2)] ∧
      o1 ++ o2 = encrypt (List.replicate 16 1) iv.toList (pkcs7 16 [7]) :=
  C130_lost ⟨.w32, false⟩ rfl iv _ (.inl (by simp)) b [7] (by rw [hb]; decide) (by decide)

end Verif.Props.Caught
