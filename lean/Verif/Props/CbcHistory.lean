import Verif.Props.Cbc

/-! Properties of `aes_cbc.rs`: arbitrary histories of calls, C35, C36, C38, C39, C43. -/

namespace Verif.Props.CbcHistory
open Verif Verif.Aes Verif.Pkcs7 Verif.AesCbc Spec.Cbc
open Verif.Props.Aes (Holds init_valid init_invalid Matches)
open Verif.Props.Cbc (decipher_session session)

/-! ### All histories -/

/-- C43: every history of calls on a `Cipher` ends without a panic, and the answers are those of the abstract machine. -/
theorem C43_cipher (T : Target) (iv : Vector U8 16) (calls : List Call) :
    ∃ c' rs, crun T (Cipher.new iv) calls = .ok (c', rs) ∧
      rs.map (·.mapError errA) = (Enc.run ⟨none, iv.toList, []⟩ calls).2 := by
  obtain ⟨c', rs, h1, _, h2⟩ := crun_spec T calls (Cipher.new iv) ⟨none, iv.toList, []⟩ ⟨rfl, rfl, rfl, by simp⟩
  exact ⟨c', rs, h1, h2⟩

/-- C43: every history of calls on a `Decipher` ends without a panic, and the answers are those of the abstract machine. -/
theorem C43_decipher (T : Target) (iv : Vector U8 16) (calls : List Call) :
    ∃ d' rs, drun T (Decipher.new iv) calls = .ok (d', rs) ∧
      rs.map (·.mapError errD) = (Dec.run ⟨none, iv.toList, [], []⟩ calls).2 := by
  obtain ⟨d', rs, h1, _, h2⟩ := drun_spec T calls (Decipher.new iv) ⟨none, iv.toList, [], []⟩
    ⟨rfl, rfl, rfl, by simp, rfl, Or.inl rfl⟩
  exact ⟨d', rs, h1, h2⟩

/-! ### Before `init` -/

theorem enc_run_none (calls : List Call) (e : Enc) (he : e.key = none)
    (h : ∀ key, Call.init key ∈ calls → ¬ validKey key) :
    (e.run calls).1.key = none ∧ ∀ r ∈ (e.run calls).2, r = .ok [] ∨ r = .error .notInitialized ∨ r = .error .invalidKeySize := by
  induction calls generalizing e with
  | nil => exact ⟨he, by simp [Enc.run]⟩
  | cons x xs ih =>
    have hx : (e.step x).1.key = none ∧
        ((e.step x).2 = .ok [] ∨ (e.step x).2 = .error .notInitialized ∨ (e.step x).2 = .error .invalidKeySize) := by
      cases x with
      | init key =>
        rw [Enc.step, if_neg (h key (by simp))]
        exact ⟨he, by simp⟩
      | write b =>
        rw [Enc.step]
        by_cases hs : (e.pending ++ b).length < 16
        · rw [if_pos hs]; exact ⟨he, by simp⟩
        · rw [if_neg hs, he]; exact ⟨rfl, by simp⟩
      | flush =>
        rw [Enc.step, he]; exact ⟨rfl, by simp⟩
    obtain ⟨h1, h2⟩ := ih (e.step x).1 hx.1 (fun k hk => h k (by simp [hk]))
    refine ⟨h1, ?_⟩
    intro r hr
    rw [Enc.run] at hr
    rcases List.mem_cons.1 hr with hr | hr
    · rw [hr]; exact hx.2
    · exact h2 r hr

theorem dec_run_none (calls : List Call) (e : Dec) (he : e.key = none) (hd : e.held = [])
    (h : ∀ key, Call.init key ∈ calls → ¬ validKey key) :
    (e.run calls).1.key = none ∧ (e.run calls).1.held = [] ∧
      ∀ r ∈ (e.run calls).2, r = .ok [] ∨ r = .error .notInitialized ∨ r = .error .invalidKeySize ∨
        r = .error .unfinishedBlock := by
  induction calls generalizing e with
  | nil => exact ⟨he, hd, by simp [Dec.run]⟩
  | cons x xs ih =>
    have hx : (e.step x).1.key = none ∧ (e.step x).1.held = [] ∧
        ((e.step x).2 = .ok [] ∨ (e.step x).2 = .error .notInitialized ∨ (e.step x).2 = .error .invalidKeySize ∨
          (e.step x).2 = .error .unfinishedBlock) := by
      cases x with
      | init key =>
        rw [Dec.step, if_neg (h key (by simp))]
        exact ⟨he, hd, by simp⟩
      | write b =>
        rw [Dec.step]
        by_cases hs : (e.pending ++ b).length < 16
        · rw [if_pos hs]; exact ⟨he, hd, by simp⟩
        · rw [if_neg hs, he]; exact ⟨rfl, hd, by simp⟩
      | flush =>
        rw [Dec.step, hd]; exact ⟨he, hd, by simp⟩
    obtain ⟨h1, h1', h2⟩ := ih (e.step x).1 hx.1 hx.2.1 (fun k hk => h k (by simp [hk]))
    refine ⟨h1, h1', ?_⟩
    intro r hr
    rw [Dec.run] at hr
    rcases List.mem_cons.1 hr with hr | hr
    · rw [hr]; exact hx.2.2
    · exact h2 r hr

theorem errA_ok (r : Except AESError (List U8)) (o : List U8) (h : r.mapError errA = .ok o) : r = .ok o := by
  cases r with
  | ok a => injection h with h; rw [h]
  | error e => cases h

theorem errA_error (r : Except AESError (List U8)) (e : AESError) (h : r.mapError errA = .error (errA e)) : r = .error e := by
  cases r with
  | ok a => cases h
  | error e' =>
    injection h with h
    cases e <;> cases e' <;> first | rfl | cases h

theorem errD_ok (r : Except DecipherError (List U8)) (o : List U8) (h : r.mapError errD = .ok o) : r = .ok o := by
  cases r with
  | ok a => injection h with h; rw [h]
  | error e => cases h

theorem errD_injective (e e' : DecipherError) (h : errD e = errD e') : e = e' := by
  rcases e with e | e <;> rcases e' with e' | e' <;> cases e <;> cases e' <;> first | rfl | cases h

theorem errD_error (r : Except DecipherError (List U8)) (e : DecipherError) (h : r.mapError errD = .error (errD e)) :
    r = .error e := by
  cases r with
  | ok a => cases h
  | error e' =>
    injection h with h
    rw [errD_injective _ _ h]

/-- C35: in a history without a successful `init` no call on a `Cipher` returns a byte: every answer is an empty `Ok`,
`NotInitialized`, or `InvalidKeySize`; a following `flush` always returns `NotInitialized`. -/
theorem C35_cipher (T : Target) (iv : Vector U8 16) (calls : List Call)
    (h : ∀ key, Call.init key ∈ calls → key.length ≠ 16 ∧ key.length ≠ 24 ∧ key.length ≠ 32) :
    ∃ c' rs, crun T (Cipher.new iv) calls = .ok (c', rs) ∧
      (∀ r ∈ rs, r = .ok [] ∨ r = .error .NotInitialized ∨ r = .error .InvalidKeySize) ∧
      ∃ c'', c'.flush T = .ok (c'', .error .NotInitialized) := by
  obtain ⟨c', rs, h1, h2, h3⟩ := crun_spec T calls (Cipher.new iv) ⟨none, iv.toList, []⟩ ⟨rfl, rfl, rfl, by simp⟩
  obtain ⟨h4, h5⟩ := enc_run_none calls ⟨none, iv.toList, []⟩ rfl (fun k hk => by
    have := h k hk
    rintro (h | h | h) <;> simp_all)
  refine ⟨c', rs, h1, ?_, ?_⟩
  · intro r hr
    have hm : r.mapError errA ∈ (Enc.run ⟨none, iv.toList, []⟩ calls).2 := by
      rw [← h3]; exact List.mem_map_of_mem hr
    rcases h5 _ hm with h | h | h
    · exact Or.inl (errA_ok r [] h)
    · exact Or.inr (Or.inl (errA_error r .NotInitialized h))
    · exact Or.inr (Or.inr (errA_error r .InvalidKeySize h))
  · obtain ⟨hk, _, hp, hl⟩ := h2
    rw [h4] at hk
    exact ⟨_, cipher_flush_none T c' _ hk hp hl⟩

/-- C35: in a history without a successful `init` no call on a `Decipher` returns a byte: every answer is an empty `Ok`,
`NotInitialized`, `InvalidKeySize`, or (for `flush`) `UnfinishedBlock`. -/
theorem C35_decipher (T : Target) (iv : Vector U8 16) (calls : List Call)
    (h : ∀ key, Call.init key ∈ calls → key.length ≠ 16 ∧ key.length ≠ 24 ∧ key.length ≠ 32) :
    ∃ d' rs, drun T (Decipher.new iv) calls = .ok (d', rs) ∧
      (∀ r ∈ rs, r = .ok [] ∨ r = .error (.AES .NotInitialized) ∨ r = .error (.AES .InvalidKeySize) ∨
        r = .error (.PKCS7 .UnfinishedBlock)) ∧
      d'.flush T = .ok (d', .error (.PKCS7 .UnfinishedBlock)) := by
  obtain ⟨d', rs, h1, h2, h3⟩ := drun_spec T calls (Decipher.new iv) ⟨none, iv.toList, [], []⟩
    ⟨rfl, rfl, rfl, by simp, rfl, Or.inl rfl⟩
  obtain ⟨h4, h4', h5⟩ := dec_run_none calls ⟨none, iv.toList, [], []⟩ rfl rfl (fun k hk => by
    have := h k hk
    rintro (h | h | h) <;> simp_all)
  refine ⟨d', rs, h1, ?_, ?_⟩
  · intro r hr
    have hm : r.mapError errD ∈ (Dec.run ⟨none, iv.toList, [], []⟩ calls).2 := by
      rw [← h3]; exact List.mem_map_of_mem hr
    rcases h5 _ hm with h | h | h | h
    · exact Or.inl (errD_ok r [] h)
    · exact Or.inr (Or.inl (errD_error r (.AES .NotInitialized) h))
    · exact Or.inr (Or.inr (Or.inl (errD_error r (.AES .InvalidKeySize) h)))
    · exact Or.inr (Or.inr (Or.inr (errD_error r (.PKCS7 .UnfinishedBlock) h)))
  · obtain ⟨_, _, _, _, hu, _⟩ := h2
    rw [h4'] at hu
    rw [Decipher.flush, hu, unpad_flush_unfinished _ _ _ (by simp)]
    rw [← hu]; rfl

/-- A history that meets the hypothesis of `C35_cipher` and `C35_decipher`: a key of 5 bytes, writes over a block boundary. -/
example : ∀ key, Call.init key ∈ [Call.init [1, 2, 3, 4, 5], .write (List.replicate 20 7), .flush, .write [1]] →
    key.length ≠ 16 ∧ key.length ≠ 24 ∧ key.length ≠ 32 := by
  intro key h
  simp at h
  subst h
  decide

/-- The answer to a write that brings the total from `n` to `n'` bytes before any `init`. -/
def uninitAnswer (n n' : Nat) : Except AESError (List U8) := if n' / 16 = n / 16 then .ok [] else .error .NotInitialized

/-- The answers to writes of the given pieces before any `init`, `n` bytes having been written before. -/
def uninitAnswers : Nat → List (List U8) → List (Except AESError (List U8))
  | _, [] => []
  | n, b :: bs => uninitAnswer n (n + b.length) :: uninitAnswers (n + b.length) bs

theorem tail_tail (s b : List U8) : tail (tail s ++ b) = tail (s ++ b) := by
  have h : 16 * (s.length / 16) ≤ s.length := by omega
  rw [tail, tail, tail, Props.Pkcs7.drop_append_le s b _ h, List.drop_drop, List.length_drop, List.length_append]
  congr 1
  omega

theorem cipher_uninit_writes (T : Target) (chunks : List (List U8)) (c : Cipher) (m : List U8)
    (h : c.aes.round_keys = none) (hp : c.pad = ⟨16, tail m⟩) :
    crun T c (chunks.map .write) = .ok ({ c with pad := ⟨16, tail (m ++ chunks.flatten)⟩ }, uninitAnswers m.length chunks) := by
  induction chunks generalizing c m with
  | nil => simp [crun, uninitAnswers, ← hp, pure_eq_ok]
  | cons b chunks ih =>
    have hl : (tail m ++ b).length = m.length % 16 + b.length := by
      rw [List.length_append, tail, List.length_drop]; omega
    have e := tail_tail m b
    have := ih { c with pad := ⟨16, tail (m ++ b)⟩ } (m ++ b) h rfl
    rw [List.append_assoc, List.length_append] at this
    rw [List.map_cons, List.flatten_cons, uninitAnswers]
    refine crun_cons T ?_ this
    rw [cstep, uninitAnswer]
    by_cases hs : (tail m ++ b).length < 16
    · rw [if_pos (by omega)]
      obtain ⟨o, h1, h2, h3⟩ := pad_write T 16 (by decide) (tail m) b
      unfold Cipher.write
      rw [hp, h1, h3.2 hs]
      rw [← e]
      rfl
    · rw [if_neg (by omega), cipher_write_none T c _ h hp b hs, e]

/-- C35: bytes written to a `Cipher` before `init`: a write answers `NotInitialized` exactly when it completes a block; the
complete blocks are lost and the incomplete tail is kept: after `init` it is the beginning of the message. -/
theorem C35_cipher_tail (T : Target) (iv : Vector U8 16) (early : List (List U8)) (key : List U8)
    (hk : key.length = 16 ∨ key.length = 24 ∨ key.length = 32) (chunks : List (List U8)) :
    ∃ (c : Cipher) (rs : List (List U8)) (last : List U8),
      crun T (Cipher.new iv) (early.map .write ++ (.init key :: (chunks.map .write ++ [.flush])))
        = .ok (c, uninitAnswers 0 early ++ (.ok [] :: (rs.map .ok ++ [.ok last]))) ∧
      rs.flatten ++ last = encrypt key iv.toList
        (pkcs7 16 (early.flatten.drop (16 * (early.flatten.length / 16)) ++ chunks.flatten)) := by
  have h0 := cipher_uninit_writes T early (Cipher.new iv) [] rfl rfl
  rw [List.nil_append] at h0
  obtain ⟨a, h1, h2⟩ := init_valid T AES.new key hk
  obtain ⟨c, rs, last, h3, _, _, _, h4, _⟩ := cipher_message T key chunks ⟨a, ⟨16, tail early.flatten⟩, iv⟩
    (tail early.flatten) h2 rfl (tail_length _)
  refine ⟨c, rs, last, crun_append T h0 (crun_cons T (x := .init key) ?_ h3), h4⟩
  rw [cstep, Cipher.init]
  change (((AES.new.init T key) >>= _) >>= _) = _
  rw [h1]
  rfl

/-- 21 bytes before the key and three after it. -/
example (T : Target) (iv : Vector U8 16) := C35_cipher_tail T iv [List.replicate 16 1, List.replicate 5 2] (List.replicate 16 1) (.inl rfl) [[1, 2], [3]]

theorem decipher_uninit_writes (T : Target) (chunks : List (List U8)) (d : Decipher) (m : List U8)
    (h : d.aes.round_keys = none) (hp : d.buffer = ⟨16, tail m⟩) :
    drun T d (chunks.map .write) = .ok ({ d with buffer := ⟨16, tail (m ++ chunks.flatten)⟩ },
      (uninitAnswers m.length chunks).map (·.mapError .AES)) := by
  induction chunks generalizing d m with
  | nil => simp [drun, uninitAnswers, ← hp, pure_eq_ok]
  | cons b chunks ih =>
    have hl : (tail m ++ b).length = m.length % 16 + b.length := by
      rw [List.length_append, tail, List.length_drop]; omega
    have e := tail_tail m b
    have := ih { d with buffer := ⟨16, tail (m ++ b)⟩ } (m ++ b) h rfl
    rw [List.append_assoc, List.length_append] at this
    rw [List.map_cons, List.flatten_cons, uninitAnswers, List.map_cons]
    refine drun_cons T ?_ this
    rw [dstep, uninitAnswer]
    by_cases hs : (tail m ++ b).length < 16
    · rw [if_pos (by omega)]
      obtain ⟨o, h1, h2, h3⟩ := pad_write T 16 (by decide) (tail m) b
      unfold Decipher.write
      rw [hp, h1, h3.2 hs]
      rw [← e]
      rfl
    · rw [if_neg (by omega), decipher_write_none T d _ h hp b hs, e]
      rfl

/-- C35: the same for a `Decipher`: the incomplete tail written before `init` is the beginning of the ciphertext. -/
theorem C35_decipher_tail (T : Target) (iv : Vector U8 16) (early : List (List U8)) (key : List U8)
    (hk : key.length = 16 ∨ key.length = 24 ∨ key.length = 32) (chunks : List (List U8)) (m : List U8)
    (hm : early.flatten.drop (16 * (early.flatten.length / 16)) ++ chunks.flatten = encrypt key iv.toList (pkcs7 16 m)) :
    ∃ (d : Decipher) (rs : List (List U8)) (last : List U8),
      drun T (Decipher.new iv) (early.map .write ++ (.init key :: (chunks.map .write ++ [.flush])))
        = .ok (d, (uninitAnswers 0 early).map (·.mapError .AES) ++ (.ok [] :: (rs.map .ok ++ [.ok last]))) ∧
      rs.flatten ++ last = m := by
  have h0 := decipher_uninit_writes T early (Decipher.new iv) [] rfl rfl
  rw [List.nil_append] at h0
  obtain ⟨a, h1, h2⟩ := init_valid T AES.new key hk
  obtain ⟨d, rs, r, h3, _, _, _, _, _, h4⟩ := decipher_message T key chunks
    ⟨a, ⟨16, []⟩, iv, ⟨16, tail early.flatten⟩⟩ (tail early.flatten) [] h2 rfl (tail_length _) rfl (Or.inl rfl)
  have hp : (pkcs7 16 m).length % 16 = 0 := by rw [pkcs7_length]; omega
  have hm' : tail early.flatten ++ chunks.flatten = encrypt key iv.toList (pkcs7 16 m) := hm
  simp only [hm', List.nil_append] at h4
  rw [decrypt_encrypt _ _ _ (by simp) hp] at h4
  obtain ⟨v, _, hv1, hv2, hv3⟩ := Props.Cbc.pkcs7_trailer m
  rcases h4 _ rfl with ⟨a, b⟩ | ⟨w, a, b, ⟨last, c, e⟩, f⟩ | ⟨w, a, b, c⟩
  · rw [a] at hv1; cases hv1
  · rw [hv1] at a
    injection a with a
    subst a
    subst c
    refine ⟨d, rs, last, drun_append T h0 (drun_cons T (x := .init key) ?_ h3), e.trans hv3⟩
    rw [dstep, Decipher.init]
    change (((AES.new.init T key) >>= _) >>= _) = _
    rw [h1]
    rfl
  · rw [hv1] at a
    injection a with a
    subst a
    exact absurd hv2 b

/-- The hypothesis of `C35_decipher_tail` can be met with every ciphertext: 21 lost bytes of which 5 are the beginning of the
ciphertext, then the rest of it. -/
example (key iv m : List U8) (h : (encrypt key iv (pkcs7 16 m)).length ≥ 5) :
    let early := [List.replicate 16 0xff, (encrypt key iv (pkcs7 16 m)).take 5]
    let chunks := [(encrypt key iv (pkcs7 16 m)).drop 5]
    early.flatten.drop (16 * (early.flatten.length / 16)) ++ chunks.flatten = encrypt key iv (pkcs7 16 m) := by
  generalize encrypt key iv (pkcs7 16 m) = c at *
  have : (List.replicate 16 (0xff : U8) ++ c.take 5).length = 21 := by simp; omega
  simp only [List.flatten_cons, List.flatten_nil, List.append_nil]
  rw [this]
  rw [show 16 * (21 / 16) = (List.replicate 16 (0xff : U8)).length by simp, List.drop_left, List.take_append_drop]

/-! ### Failed and successful `flush` of a `Decipher` -/

theorem bind_ok {α β : Type} {x : M α} {f : α → M β} {y : β} (h : x >>= f = .ok y) : ∃ a, x = .ok a ∧ f a = .ok y := by
  cases x with
  | error e => cases h
  | ok a => exact ⟨a, rfl, h⟩

theorem unpad_flush_cases (T : Target) (u u' : Unpad) (r : Except UnpadError (List U8)) (h : u.flush T = .ok (u', r)) :
    (u' = u ∧ ∃ e, r = .error e) ∨ (u' = { u with storage := [] } ∧ ∃ o, r = .ok o) := by
  unfold Unpad.flush at h
  split at h
  · injection h with h
    injection h with h1 h2
    exact Or.inl ⟨h1.symm, _, h2.symm⟩
  · simp only [] at h
    obtain ⟨a, _, h⟩ := bind_ok h
    obtain ⟨len, _, h⟩ := bind_ok h
    split at h
    · injection h with h
      injection h with h1 h2
      exact Or.inl ⟨h1.symm, _, h2.symm⟩
    · obtain ⟨off, _, h⟩ := bind_ok h
      obtain ⟨sl, _, h⟩ := bind_ok h
      split at h
      · injection h with h
        injection h with h1 h2
        exact Or.inl ⟨h1.symm, _, h2.symm⟩
      · obtain ⟨res, _, h⟩ := bind_ok h
        injection h with h
        injection h with h1 h2
        exact Or.inr ⟨h1.symm, _, h2.symm⟩

theorem decipher_flush_cases (T : Target) (d d' : Decipher) (r : Except DecipherError (List U8))
    (h : d.flush T = .ok (d', r)) :
    (d' = d ∧ ∃ e, r = .error e) ∨ (d' = { d with unpad := { d.unpad with storage := [] } } ∧ ∃ o, r = .ok o) := by
  unfold Decipher.flush at h
  obtain ⟨⟨u, q⟩, h1, h⟩ := bind_ok h
  rcases unpad_flush_cases T _ _ _ h1 with ⟨rfl, e, rfl⟩ | ⟨rfl, o, rfl⟩
  · injection h with h
    injection h with h1 h2
    exact Or.inl ⟨h1.symm, _, h2.symm⟩
  · injection h with h
    injection h with h1 h2
    exact Or.inr ⟨h1.symm, _, h2.symm⟩

/-- C36: after a `flush` that fails, in any state, all later calls answer as if it had not been made. -/
theorem C36_failed_flush (T : Target) (d d' : Decipher) (e : DecipherError) (h : d.flush T = .ok (d', .error e))
    (calls : List Call) :
    d' = d ∧ drun T d (.flush :: calls) = (drun T d calls).map fun p => (p.1, .error e :: p.2) := by
  have hd : d' = d := by
    rcases decipher_flush_cases T d d' _ h with ⟨h, _⟩ | ⟨_, o, h⟩
    · exact h
    · cases h
  subst hd
  refine ⟨rfl, ?_⟩
  rw [drun, dstep, h]
  simp only [ok_bind]
  cases drun T d' calls <;> rfl

/-- A fresh instance. -/
example (T : Target) (iv : Vector U8 16) (calls : List Call) :=
  C36_failed_flush T (Decipher.new iv) (Decipher.new iv) (.PKCS7 .UnfinishedBlock)
    (by rw [Decipher.flush, show (Decipher.new iv).unpad = ⟨16, []⟩ from rfl, unpad_flush_unfinished _ _ _ (by simp)]; rfl) calls

/-- C36: after a `flush` that succeeds, later answers do not depend on the decrypted bytes held back until then: two instances
that differ only in these answer all later calls alike. -/
theorem C36_successful_flush (T : Target) (d₁ d₂ d₁' d₂' : Decipher) (o₁ o₂ : List U8)
    (h₁ : d₁.flush T = .ok (d₁', .ok o₁)) (h₂ : d₂.flush T = .ok (d₂', .ok o₂))
    (hs : d₂ = { d₁ with unpad := { d₁.unpad with storage := d₂.unpad.storage } }) (calls : List Call) :
    drun T d₁' calls = drun T d₂' calls := by
  have e (d d' : Decipher) (o : List U8) (h : d.flush T = .ok (d', .ok o)) :
      d' = { d with unpad := { d.unpad with storage := [] } } := by
    rcases decipher_flush_cases T d d' _ h with ⟨_, e, h⟩ | ⟨h, _⟩
    · cases h
    · exact h
  rw [e _ _ _ h₁, e _ _ _ h₂, hs]

/-- States that meet the hypotheses: a fresh instance fails, and an instance that holds a block of 16 bytes 16, as well as one
that holds a block ending in 2, 2, succeeds. -/
example (T : Target) (iv : Vector U8 16) :
    (Decipher.new iv).flush T = .ok (Decipher.new iv, .error (.PKCS7 .UnfinishedBlock)) ∧
    (∃ d', { Decipher.new iv with unpad := ⟨16, List.replicate 16 16⟩ }.flush T = .ok (d', .ok [])) ∧
    (∃ d', { Decipher.new iv with unpad := ⟨16, List.replicate 14 7 ++ [2, 2]⟩ }.flush T
      = .ok (d', .ok (List.replicate 14 7))) := by
  refine ⟨?_, ?_, ?_⟩
  · rw [Decipher.flush, show (Decipher.new iv).unpad = ⟨16, []⟩ from rfl, unpad_flush_unfinished _ _ _ (by simp)]; rfl
  · have := (unpad_flush_full T 16 (by decide) (by decide) (List.replicate 16 16) 16 (by simp) (by decide)).1 (by
      unfold padOk; decide)
    exact ⟨_, by rw [Decipher.flush, this]; rfl⟩
  · have := (unpad_flush_full T 16 (by decide) (by decide) (List.replicate 14 7 ++ [2, 2]) 2 (by simp) (by decide)).1 (by
      unfold padOk; decide)
    exact ⟨_, by rw [Decipher.flush, this]; rfl⟩

/-! ### Changing the key -/

/-- C39: `init` with a key of a wrong size, in any state, answers `InvalidKeySize` and changes nothing. -/
theorem C39_invalid (T : Target) (c : Cipher) (d : Decipher) (key : List U8)
    (hk : key.length ≠ 16 ∧ key.length ≠ 24 ∧ key.length ≠ 32) :
    c.init T key = .ok (c, .error .InvalidKeySize) ∧ d.init T key = .ok (d, .error .InvalidKeySize) := by
  have hv : ¬ validKey key := by
    rintro (h | h | h) <;> simp_all
  constructor
  · rw [Cipher.init, init_invalid T c.aes key hv]; rfl
  · rw [Decipher.init, init_invalid T d.aes key hv]; rfl

/-- A key of 17 bytes. -/
example (T : Target) (c : Cipher) (d : Decipher) := C39_invalid T c d (List.replicate 17 1) (by decide)

/-- C39: `init` with a valid key, in any state, changes the AES instance and nothing else, and this instance encrypts and
decrypts like a fresh one with that key. -/
theorem C39_valid (T : Target) (c : Cipher) (d : Decipher) (key : List U8)
    (hk : key.length = 16 ∨ key.length = 24 ∨ key.length = 32) :
    ∃ a₁ a₂ fresh, c.init T key = .ok ({ c with aes := a₁ }, .ok ()) ∧ d.init T key = .ok ({ d with aes := a₂ }, .ok ()) ∧
      AES.new.init T key = .ok (fresh, .ok ()) ∧
      ∀ b, a₁.encrypt b = fresh.encrypt b ∧ a₂.decrypt b = fresh.decrypt b := by
  obtain ⟨a₁, h1, h1'⟩ := init_valid T c.aes key hk
  obtain ⟨a₂, h2, h2'⟩ := init_valid T d.aes key hk
  obtain ⟨f, h3, h3'⟩ := init_valid T AES.new key hk
  refine ⟨a₁, a₂, f, ?_, ?_, h3, fun b => ⟨?_, ?_⟩⟩
  · rw [Cipher.init, h1]; rfl
  · rw [Decipher.init, h2]; rfl
  · obtain ⟨o, e1, e2⟩ := h1'.encrypt b
    obtain ⟨o', e1', e2'⟩ := h3'.encrypt b
    rw [e1, e1', Vector.toList_inj.1 (e2.trans e2'.symm)]
  · obtain ⟨o, e1, e2⟩ := h2'.decrypt b
    obtain ⟨o', e1', e2'⟩ := h3'.decrypt b
    rw [e1, e1', Vector.toList_inj.1 (e2.trans e2'.symm)]

/-- A key of 24 bytes. -/
example (T : Target) (c : Cipher) (d : Decipher) := C39_valid T c d (List.replicate 24 1) (by decide)

/-- C39: a new key in the middle of a message: the complete blocks so far are encrypted under the old key, the incomplete one
and all later ones under the new key, and the chaining goes on. -/
theorem C39_cipher_rekey (T : Target) (iv : Vector U8 16) (key key' : List U8)
    (hk : key.length = 16 ∨ key.length = 24 ∨ key.length = 32) (hk' : key'.length = 16 ∨ key'.length = 24 ∨ key'.length = 32)
    (chunks chunks' : List (List U8)) :
    ∃ (c : Cipher) (rs rs' : List (List U8)) (last : List U8),
      crun T (Cipher.new iv) (.init key :: (chunks.map .write ++ (.init key' :: (chunks'.map .write ++ [.flush]))))
        = .ok (c, .ok [] :: (rs.map .ok ++ (.ok [] :: (rs'.map .ok ++ [.ok last])))) ∧
      rs.flatten = encrypt key iv.toList chunks.flatten ∧
      rs'.flatten ++ last = encrypt key' (lastBlock iv.toList rs.flatten)
        (pkcs7 16 (chunks.flatten.drop (16 * (chunks.flatten.length / 16)) ++ chunks'.flatten)) := by
  obtain ⟨a, h1, h2⟩ := init_valid T AES.new key hk
  obtain ⟨c1, rs, h3, h4, h5, h6, h7, h8⟩ := cipher_writes T key chunks ⟨a, ⟨16, []⟩, iv⟩ [] h2 rfl (by simp)
  obtain ⟨a', h1', h2'⟩ := init_valid T c1.aes key' hk'
  obtain ⟨c, rs', last, h9, _, _, _, h10, _⟩ := cipher_message T key' chunks' ⟨a', c1.pad, c1.iv⟩ (tail chunks.flatten) h2' h7
    (tail_length _)
  have e : rs.flatten = encrypt key iv.toList chunks.flatten := by
    have := h5 rs.length
    rw [List.take_length, h4, List.take_length] at this
    exact this
  refine ⟨c, rs, rs', last, ?_, e, ?_⟩
  · refine crun_cons T (x := .init key) ?_ (crun_append T h3 (crun_cons T (x := .init key') ?_ h9))
    · rw [cstep, Cipher.init, show (Cipher.new iv).aes = AES.new from rfl, h1]; rfl
    · rw [cstep, Cipher.init, h1']; rfl
  · rw [e, lastBlock, blocks_encrypt]
    simp only [List.nil_append] at h8
    simp only [h8] at h10
    exact h10

/-- A new key after 20 bytes. -/
example (T : Target) (iv : Vector U8 16) := C39_cipher_rekey T iv (List.replicate 16 1) (List.replicate 32 2) (.inl rfl) (.inr (.inr rfl))
  [List.replicate 20 1] [List.replicate 3 7]

/-- C39: the same for a `Decipher`; the block held back keeps its plaintext from the old key. -/
theorem C39_decipher_rekey (T : Target) (iv : Vector U8 16) (key key' : List U8)
    (hk : key.length = 16 ∨ key.length = 24 ∨ key.length = 32) (hk' : key'.length = 16 ∨ key'.length = 24 ∨ key'.length = 32)
    (chunks chunks' : List (List U8)) (P : List U8)
    (hP : P = decrypt key iv.toList chunks.flatten ++ decrypt key' (lastBlock iv.toList chunks.flatten)
      (chunks.flatten.drop (16 * (chunks.flatten.length / 16)) ++ chunks'.flatten)) :
    ∃ (d : Decipher) (rs rs' : List (List U8)) (r : Except DecipherError (List U8)),
      drun T (Decipher.new iv) (.init key :: (chunks.map .write ++ (.init key' :: (chunks'.map .write ++ [.flush]))))
        = .ok (d, .ok [] :: (rs.map .ok ++ (.ok [] :: (rs'.map .ok ++ [r])))) ∧
      rs.flatten ++ rs'.flatten = P.take (P.length - 16) ∧
      ((P = [] ∧ r = .error (.PKCS7 .UnfinishedBlock)) ∨
        (∃ v, P.getLast? = some v ∧ Trailer P v ∧
          ∃ last, r = .ok last ∧ rs.flatten ++ rs'.flatten ++ last = P.take (P.length - v.toNat)) ∨
        (∃ v, P.getLast? = some v ∧ ¬ Trailer P v ∧ r = .error (.PKCS7 .InvalidPadding))) := by
  obtain ⟨a, h1, h2⟩ := init_valid T AES.new key hk
  obtain ⟨d1, rs, h3, h4, h5, h6, h7, h8, h9⟩ := decipher_writes T key chunks ⟨a, ⟨16, []⟩, iv, ⟨16, []⟩⟩ [] [] h2 rfl
    (by simp) rfl (by simp)
  simp only [List.nil_append] at h5 h7 h8 h9
  obtain ⟨a', h1', h2'⟩ := init_valid T d1.aes key' hk'
  have hlen := decrypt_length key iv.toList chunks.flatten (by simp)
  have hfl : rs.flatten = (decrypt key iv.toList chunks.flatten).take
      ((decrypt key iv.toList chunks.flatten).length - 16) := by
    have := h5 chunks.length _ rfl
    rw [List.take_length, ← h4, List.take_length] at this
    rw [this]
    change List.take (unpadCut 16 (decrypt key iv.toList chunks.flatten).length) (decrypt key iv.toList chunks.flatten) = _
    rw [unpadCut_whole _ (by omega)]
  have hun : d1.unpad = ⟨16, (decrypt key iv.toList chunks.flatten).drop
      ((decrypt key iv.toList chunks.flatten).length - 16)⟩ := by
    rw [h8 _ rfl]
    change Unpad.mk 16 (List.drop (unpadCut 16 (decrypt key iv.toList chunks.flatten).length) (decrypt key iv.toList chunks.flatten)) = _
    rw [unpadCut_whole _ (by omega)]
  generalize hQ : decrypt key iv.toList chunks.flatten = Q at *
  obtain ⟨d, rs', r, h10, h11, h12, _, _, _, h13⟩ := decipher_message T key' chunks' ⟨a', d1.unpad, d1.iv, d1.buffer⟩
    (tail chunks.flatten) (Q.drop (Q.length - 16)) h2' h7 (tail_length _) hun (by
      by_cases h0 : Q.length = 0
      · left; rw [List.length_eq_zero_iff.1 h0]; rfl
      · right; rw [List.length_drop]; omega)
  simp only [h9] at h12 h13
  have e : Q.take (Q.length - 16) ++ (Q.drop (Q.length - 16) ++ decrypt key' (lastBlock iv.toList chunks.flatten)
      (tail chunks.flatten ++ chunks'.flatten)) = P := by
    rw [← List.append_assoc, List.take_append_drop, hP]; rfl
  have hfl' := h12 chunks'.length _ rfl
  rw [List.take_length, ← h11, List.take_length] at hfl'
  change rs'.flatten = List.take ((Q.drop (Q.length - 16) ++ decrypt key' (lastBlock iv.toList chunks.flatten)
      (tail chunks.flatten ++ chunks'.flatten)).length - 16) (Q.drop (Q.length - 16) ++ decrypt key' (lastBlock iv.toList chunks.flatten)
      (tail chunks.flatten ++ chunks'.flatten)) at hfl'
  have h14 := h13 (Q.drop (Q.length - 16) ++ decrypt key' (lastBlock iv.toList chunks.flatten)
      (tail chunks.flatten ++ chunks'.flatten)) rfl
  have hmod : (Q.drop (Q.length - 16) ++ decrypt key' (lastBlock iv.toList chunks.flatten)
      (tail chunks.flatten ++ chunks'.flatten)).length % 16 = 0 := by
    have hlb : (lastBlock iv.toList chunks.flatten).length = 16 := by rw [lastBlock, ← h9]; simp
    rw [List.length_append, List.length_drop, decrypt_length _ _ _ hlb]
    omega
  have hSR : Q.take (Q.length - 16) = [] ∨ 16 ≤ (Q.drop (Q.length - 16) ++ decrypt key' (lastBlock iv.toList chunks.flatten)
      (tail chunks.flatten ++ chunks'.flatten)).length := by
    by_cases h0 : Q.length = 0
    · left; rw [List.length_eq_zero_iff.1 h0]; rfl
    · right; rw [List.length_append, List.length_drop]; omega
  generalize Q.drop (Q.length - 16) ++ decrypt key' (lastBlock iv.toList chunks.flatten)
      (tail chunks.flatten ++ chunks'.flatten) = R at e hfl' h14 hmod hSR
  rw [← hfl] at hSR e
  have htake (n : Nat) (hn : n ≤ 16) (hR : 16 ≤ R.length) : rs.flatten ++ R.take (R.length - n) = P.take (P.length - n) := by
    rw [← e, List.take_append, List.length_append, List.take_of_length_le (l := rs.flatten) (by omega)]
    congr 2
    omega
  refine ⟨d, rs, rs', r, ?_, ?_, ?_⟩
  · refine drun_cons T (x := .init key) ?_ (drun_append T h3 (drun_cons T (x := .init key') ?_ h10))
    · rw [dstep, Decipher.init, show (Decipher.new iv).aes = AES.new from rfl, h1]; rfl
    · rw [dstep, Decipher.init, h1']; rfl
  · rw [hfl']
    rcases hSR with h | h
    · rw [h, List.nil_append] at e
      rw [h, List.nil_append, e]
    · exact htake 16 (by omega) h
  · have hlast (v : U8) (hv : R.getLast? = some v) : 16 ≤ R.length ∧ P.getLast? = some v ∧ (Trailer P v ↔ Trailer R v) := by
      have hne : R ≠ [] := by intro h0; rw [h0] at hv; cases hv
      have hpos := List.length_pos_iff.2 hne
      have hR : 16 ≤ R.length := by omega
      have hdrop (h : v.toNat ≤ 16) : P.drop (P.length - v.toNat) = R.drop (R.length - v.toNat) := by
        rw [← e, List.drop_append, List.length_append, List.drop_of_length_le (by omega), List.nil_append]
        congr 1
        omega
      refine ⟨hR, ?_, ?_⟩
      · rw [← e, List.getLast?_append, hv]; rfl
      · unfold Trailer
        constructor
        · rintro ⟨x, y⟩
          rw [hdrop x] at y
          exact ⟨x, y⟩
        · rintro ⟨x, y⟩
          rw [← hdrop x] at y
          exact ⟨x, y⟩
    rcases h14 with ⟨x, y, _⟩ | ⟨v, x, y, ⟨last, z, w⟩, _⟩ | ⟨v, x, y, z, _⟩
    · left
      subst x
      have hS : rs.flatten = [] := by
        rcases hSR with h | h
        · exact h
        · simp at h
      exact ⟨by rw [← e, hS]; rfl, y⟩
    · obtain ⟨hR, hl, ht⟩ := hlast v x
      right; left
      refine ⟨v, hl, ht.2 y, last, z, ?_⟩
      rw [List.append_assoc, w]
      exact htake _ y.1 hR
    · obtain ⟨hR, hl, ht⟩ := hlast v x
      right; right
      exact ⟨v, hl, fun h => y (ht.1 h), z⟩

/-- A new key after 20 bytes. -/
example (T : Target) (iv : Vector U8 16) := C39_decipher_rekey T iv (List.replicate 16 1) (List.replicate 32 2) (.inl rfl) (.inr (.inr rfl))
  [List.replicate 20 1] [List.replicate 12 7] _ rfl

/-! ### Error propagation -/

theorem decrypt_split (key iv A c B : List U8) (hA : A.length % 16 = 0) (hc : c.length = 16) :
    decrypt key iv (A ++ c ++ B)
      = decrypt key iv A ++ (Spec.xorBytes (Spec.Aes.decrypt key c) (lastBlock iv A) ++ decrypt key c B) := by
  rw [List.append_assoc, decrypt, blocks_append, decBlocks_append, List.flatten_append]
  have : A.drop (padCut 16 A.length) = [] := by
    apply List.drop_of_length_le; rw [padCut]; omega
  rw [this, List.nil_append, blocks_cons c B hc, decBlocks, List.flatten_cons]
  rfl

theorem decrypt_first (key B : List U8) : ∃ q post : List U8, (q.length = 16 ∨ (q = [] ∧ post = [])) ∧
    ∀ c : List U8, decrypt key c B = Spec.xorBytes q c ++ post := by
  cases h : blocks B with
  | nil => exact ⟨[], [], Or.inr ⟨rfl, rfl⟩, fun c => by rw [decrypt, h]; rfl⟩
  | cons b bs =>
    refine ⟨Spec.Aes.decrypt key b, (decBlocks (Spec.Aes.decrypt key) b bs).flatten, Or.inl (aes_decrypt_length _ _), fun c => ?_⟩
    rw [decrypt, h, decBlocks, List.flatten_cons]

/-- C38: two ciphertexts that differ in one block (`c`, `c'` after the whole blocks `A`, before `B`), in any pieces: the bytes
that come out of the writes agree before that block and from the second block after it on, and in the block after it they
differ by the xor of `c` and `c'`. -/
theorem C38_error_propagation (T : Target) (iv : Vector U8 16) (key : List U8)
    (hk : key.length = 16 ∨ key.length = 24 ∨ key.length = 32) (A c c' B : List U8) (hA : A.length % 16 = 0)
    (hc : c.length = 16) (hc' : c'.length = 16) (chunks chunks' : List (List U8)) (h : chunks.flatten = A ++ c ++ B)
    (h' : chunks'.flatten = A ++ c' ++ B) :
    ∃ (d d' : Decipher) (rs rs' : List (List U8)) (r r' : Except DecipherError (List U8)),
      drun T (Decipher.new iv) (.init key :: (chunks.map .write ++ [.flush])) = .ok (d, .ok [] :: (rs.map .ok ++ [r])) ∧
      drun T (Decipher.new iv) (.init key :: (chunks'.map .write ++ [.flush])) = .ok (d', .ok [] :: (rs'.map .ok ++ [r'])) ∧
      rs.flatten.length = 16 * ((A ++ c ++ B).length / 16 - 1) ∧ rs'.flatten.length = rs.flatten.length ∧
      ∀ i (h1 : i < rs.flatten.length) (h2 : i < rs'.flatten.length),
        (i < A.length ∨ A.length + 32 ≤ i → rs.flatten[i] = rs'.flatten[i]) ∧
        (∀ j (hj : j < 16), i = A.length + 16 + j → rs.flatten[i] ^^^ rs'.flatten[i] = c[j] ^^^ c'[j]) := by
  obtain ⟨d, rs, r, e1, e2, e3, _⟩ := decipher_session T iv key hk chunks
  obtain ⟨d', rs', r', e1', e2', e3', _⟩ := decipher_session T iv key hk chunks'
  refine ⟨d, d', rs, rs', r, r', e1, e1', ?_⟩
  have f := e3 chunks.length _ rfl
  have f' := e3' chunks'.length _ rfl
  rw [List.take_length, ← e2, List.take_length, h] at f
  rw [List.take_length, ← e2', List.take_length, h'] at f'
  have l1 := decrypt_length key iv.toList (A ++ c ++ B) (by simp)
  have l2 := decrypt_length key iv.toList (A ++ c' ++ B) (by simp)
  have l3 : (A ++ c' ++ B).length = (A ++ c ++ B).length := by simp [hc, hc']
  have l4 := decrypt_length key iv.toList A (by simp)
  rw [l3] at l2
  rw [l1] at f
  rw [l2] at f'
  have len : rs.flatten.length = 16 * ((A ++ c ++ B).length / 16 - 1) := by rw [f, List.length_take, l1]; omega
  have len' : rs'.flatten.length = 16 * ((A ++ c ++ B).length / 16 - 1) := by rw [f', List.length_take, l2]; omega
  refine ⟨len, by rw [len, len'], ?_⟩
  intro i h1 h2
  have hlb : (lastBlock iv.toList A).length = 16 := by
    rw [lastBlock, List.getLastD_eq_getLast?]
    cases hb : (blocks A).getLast? with
    | none => simp
    | some x => exact mem_blocks A x (List.mem_of_getLast? hb)
  obtain ⟨q, post, hq, hqp⟩ := decrypt_first key B
  have s1 := decrypt_split key iv.toList A c B hA hc
  have s2 := decrypt_split key iv.toList A c' B hA hc'
  rw [hqp] at s1 s2
  have x1 := xor_length (Spec.Aes.decrypt key c) _ (aes_decrypt_length _ _) hlb
  have x2 := xor_length (Spec.Aes.decrypt key c') _ (aes_decrypt_length _ _) hlb
  have g1 : rs.flatten[i] = (decrypt key iv.toList (A ++ c ++ B))[i]'(by omega) := by
    simp only [f]; exact List.getElem_take
  have g2 : rs'.flatten[i] = (decrypt key iv.toList (A ++ c' ++ B))[i]'(by omega) := by
    simp only [f']; exact List.getElem_take
  rw [g1, g2]
  simp only [s1, s2]
  have l5 := congrArg List.length s1
  rw [l1] at l5
  simp only [List.length_append, l4, x1] at l5
  have l6 : (A ++ c ++ B).length = A.length + c.length + B.length := by
    simp only [List.length_append]
  generalize Spec.xorBytes (Spec.Aes.decrypt key c) (lastBlock iv.toList A) = X at *
  generalize Spec.xorBytes (Spec.Aes.decrypt key c') (lastBlock iv.toList A) = X' at *
  generalize decrypt key iv.toList A = PA at *
  have hPA : PA.length = A.length := by omega
  constructor
  · rintro (hi | hi)
    · rw [List.getElem_append_left (by omega), List.getElem_append_left (by omega)]
    · rcases hq with hq | ⟨hq, hp⟩
      · have y1 := xor_length q c hq hc
        have y2 := xor_length q c' hq hc'
        rw [List.getElem_append_right (by omega), List.getElem_append_right (by omega), List.getElem_append_right (by omega),
          List.getElem_append_right (by omega), List.getElem_append_right (by omega), List.getElem_append_right (by omega)]
        simp only [x1, x2, y1, y2]
      · subst hq hp
        exfalso
        simp [Spec.xorBytes] at l5
        omega
  · intro j hj hij
    rcases hq with hq | ⟨hq, hp⟩
    · have y1 := xor_length q c hq hc
      have y2 := xor_length q c' hq hc'
      rw [List.getElem_append_right (by omega), List.getElem_append_right (by omega), List.getElem_append_left (by omega),
        List.getElem_append_right (by omega), List.getElem_append_right (by omega), List.getElem_append_left (by omega)]
      have hj1 : i - PA.length - X.length = j := by omega
      have hj2 : i - PA.length - X'.length = j := by omega
      simp only [hj1, hj2, Spec.xorBytes, List.getElem_zipWith]
      have (a b c : U8) : (a ^^^ b) ^^^ (a ^^^ c) = b ^^^ c := by
        rw [BitVec.xor_comm a b, BitVec.xor_assoc, ← BitVec.xor_assoc a a, BitVec.xor_self, BitVec.zero_xor]
      exact this _ _ _
    · subst hq hp
      exfalso
      simp [Spec.xorBytes] at l5
      omega

/-- The second of four blocks is another one. -/
example (T : Target) (iv : Vector U8 16) := C38_error_propagation T iv (List.replicate 16 1) (.inl rfl) (List.replicate 16 2) (List.replicate 16 3)
  (List.replicate 16 4) (List.replicate 32 5) rfl rfl rfl [List.replicate 16 2, List.replicate 16 3, List.replicate 32 5]
  [List.replicate 16 2 ++ List.replicate 16 4 ++ List.replicate 32 5] rfl rfl

end Verif.Props.CbcHistory
