import Verif.Source.TraceCipher
import Verif.Props.SideChannel

/-!
C77: what an observer of the execution learns from the CBC cipher: the key and everything that is written.
-/

set_option linter.constructorNameAsVariable false

namespace Verif.Props.SideChannel
open Verif Verif.Aes Verif.AesCbc Verif.Pkcs7 Verif.Source Verif.Props.ConstantTime Spec.Cbc
open Verif.Props.Aes (Holds)

/-! ### The functions of the cipher -/

theorem xorBlock_inj {a b iv : Vector U8 16} (h : xorBlock a iv = xorBlock b iv) : a = b := by
  apply Vector.ext
  intro i hi
  have := congrArg (fun v => v[i] ^^^ iv[i]) h
  simpa [xorBlock, BitVec.xor_assoc] using this

theorem holds_words {a : AES} {key : List U8} (h : Holds a key) :
    ∃ nr ks, 2 ≤ nr ∧ nr ≤ 14 ∧ a = ⟨nr, some ks⟩ ∧ ks.length = 4 * (nr + 1) := by
  obtain ⟨h1, h2, ws, h3, h4⟩ := h
  rcases a with ⟨n, k⟩
  cases h3
  exact ⟨n, ws, by simp at h2; omega, by simp at h2; omega, rfl, h4.1⟩

/-- What is seen of `encrypt_block` determines the block, if key and initialization vector are known. -/
theorem encrypt_block_reveals (T : Target) (F d : Nat) (a : AES) (key : List U8) (h : Holds a key) (p p' : Pad) (iv : Vector U8 16)
    (b b' : List U8) (hb : b.length = 16) (hb' : b'.length = 16) (r r' : Trace)
    (e : (callT T crate (F + 65) (d + 6) .aes_cbc_Cipher_encrypt_block [encCipher ⟨a, p, iv⟩, bytes b]).1 ++ r =
      (callT T crate (F + 65) (d + 6) .aes_cbc_Cipher_encrypt_block [encCipher ⟨a, p', iv⟩, bytes b']).1 ++ r') : b = b' ∧ r = r' := by
  obtain ⟨v, rfl⟩ : ∃ v : Vector U8 16, b = v.toList := ⟨⟨b.toArray, by simpa using hb⟩, by simp⟩
  obtain ⟨v', rfl⟩ : ∃ v : Vector U8 16, b' = v.toList := ⟨⟨b'.toArray, by simpa using hb'⟩, by simp⟩
  rw [trace_encrypt_block T F d _ key h, trace_encrypt_block T F d _ key h] at e
  obtain ⟨nr, ks, h1, h2, rfl, h3⟩ := holds_words h
  simp only [List.append_assoc, List.append_cancel_left_eq] at e
  have hv := xorBlock_inj (encrypt_reveals T (F + 65) (d + 2) nr h1 ks (by omega) _ _ _ _ e)
  subst hv
  exact ⟨rfl, by simpa using e⟩

/-- What is seen of the loop of `write` determines the blocks. -/
theorem blocks_reveal (T : Target) (F d : Nat) (a : AES) (key : List U8) (h : Holds a key) (p p' : Pad) (iv : Vector U8 16)
    (bs bs' : List (List U8)) (hb : ∀ b ∈ bs, b.length = 16) (hb' : ∀ b ∈ bs', b.length = 16) (hl : bs.length = bs'.length)
    (o : List U8) (r r' : Trace)
    (e : stateTr (encTr T F d) encNext bs (⟨a, p, iv⟩, o) ++ r = stateTr (encTr T F d) encNext bs' (⟨a, p', iv⟩, o) ++ r') :
    bs = bs' ∧ r = r' := by
  induction bs generalizing bs' iv o with
  | nil =>
    obtain rfl := List.length_eq_zero_iff.1 hl.symm
    exact ⟨rfl, e⟩
  | cons b bs ih =>
    rcases bs' with _ | ⟨b', bs'⟩
    · cases hl
    · simp only [stateTr, encTr, List.cons_append, List.append_assoc, List.cons.injEq, true_and] at e
      obtain ⟨rfl, e⟩ := encrypt_block_reveals T F d a key h p p' iv b b' (hb b (by simp)) (hb' b' (by simp)) _ _ e
      simp only [List.nil_append, List.cons.injEq, true_and] at e
      obtain ⟨v, h1, h2⟩ := encrypt_block_ok ⟨a, p, iv⟩ key h b (hb b (by simp))
      obtain ⟨v', h1', h2'⟩ := encrypt_block_ok ⟨a, p', iv⟩ key h b (hb b (by simp))
      obtain rfl : v = v' := Vector.toList_inj.1 (h2.trans h2'.symm)
      rw [encNext, encNext, h1, h1'] at e
      obtain ⟨rfl, rfl⟩ := ih v bs' (fun x hx => hb x (by simp [hx])) (fun x hx => hb' x (by simp [hx])) (by simpa using hl) _ e
      exact ⟨rfl, rfl⟩

theorem low_pad {s s' : List U8} (h : s.length = s'.length) : Low (encPad ⟨16, s⟩) (encPad ⟨16, s'⟩) := by
  have := low_bytes h
  unfold Low at *
  simpa [encPad, Val.mask, Val.maskFields] using this

/-- What is seen of `Cipher::write` determines how many bytes are written and the blocks that become complete. -/
theorem write_reveals (T : Target) (F d : Nat) (a : AES) (key : List U8) (h : Holds a key) (s s' : List U8) (hs : s.length = s'.length)
    (hs16 : s.length < 16) (iv : Vector U8 16) (b b' : List U8) (hb : b.length + 16 ≤ T.isizeMax) (hb' : b'.length + 16 ≤ T.isizeMax)
    (r r' : Trace)
    (e : (callT T crate (F + 65) (d + 7) .aes_cbc_Cipher_write [encCipher ⟨a, ⟨16, s⟩, iv⟩, bytes b]).1 ++ r =
      (callT T crate (F + 65) (d + 7) .aes_cbc_Cipher_write [encCipher ⟨a, ⟨16, s'⟩, iv⟩, bytes b']).1 ++ r') :
    b.length = b'.length ∧ blocks (s ++ b) = blocks (s' ++ b') ∧ r = r' := by
  have hd (x b : List U8) := trace_Pad_write_head T (F + 65) (d + 5) ⟨16, x⟩ b
  have hl : b.length = b'.length := by
    have hs1 : ∀ x b : List U8, b.length + 16 ≤ T.isizeMax → x.length < 16 → ∃ t,
        (callT T crate (F + 65) (d + 7) .aes_cbc_Cipher_write [encCipher ⟨a, ⟨16, x⟩, iv⟩, bytes b]).1 =
          .call .pkcs7_Pad_write :: .count b.length :: t := by
      intro x b hb hx
      have hd := hd x b
      rcases ht : (callT T crate (F + 65) (d + 6) .pkcs7_Pad_write [encPad ⟨16, x⟩, bytes b]).1 with _ | ⟨v, t⟩
      · rw [ht] at hd; cases hd
      · rw [ht] at hd
        cases hd
        by_cases hlt : x.length + b.length < 16
        · exact ⟨_, by rw [trace_Cipher_write_short T (F + 65) (d + 5) _ x b rfl hlt, ht]; rfl⟩
        · exact ⟨_, by rw [trace_Cipher_write T F d _ key x b h rfl (by omega) (by omega), ht]; rfl⟩
    obtain ⟨t, ht⟩ := hs1 s b hb hs16
    obtain ⟨t', ht'⟩ := hs1 s' b' hb' (by omega)
    rw [ht, ht'] at e
    simp only [List.cons_append, List.cons.injEq, true_and, Event.count.injEq] at e
    exact e.1
  refine ⟨hl, ?_⟩
  have hw := same_trace T (F + 65) (d + 6) .pkcs7_Pad_write (by decide) (.cons (low_pad hs) (.cons (low_bytes hl) .nil))
  by_cases hlt : s.length + b.length < 16
  · rw [trace_Cipher_write_short T (F + 65) (d + 5) _ s b rfl hlt, trace_Cipher_write_short T (F + 65) (d + 5) _ s' b' rfl (by omega), hw] at e
    rw [blocks_short _ (by simpa using hlt), blocks_short _ (by simp; omega)]
    simpa using e
  · rw [trace_Cipher_write T F d _ key s b h rfl (by omega) (by omega), trace_Cipher_write T F d _ key s' b' h rfl (by omega) (by omega),
      hw] at e
    have hbl : (blocks (s ++ b)).length = (blocks (s' ++ b')).length := by simp [blocks_length, hs, hl]
    have hll : (s ++ b).length = (s' ++ b').length := by simp [hs, hl]
    rw [hbl, hll] at e
    simp only [List.cons_append, List.append_assoc, List.cons.injEq, true_and, List.append_cancel_left_eq, List.nil_append] at e
    exact blocks_reveal T F d a key h _ _ iv _ _ (mem_blocks _) (mem_blocks _) hbl _ _ _ e

/-- What is seen of `Cipher::flush` determines the bytes it pads. -/
theorem flush_reveals (T : Target) (F d : Nat) (a : AES) (key : List U8) (h : Holds a key) (s s' : List U8) (hs : s.length = s'.length)
    (hs16 : s.length < 16) (iv : Vector U8 16) (r r' : Trace)
    (e : (callT T crate (F + 65) (d + 7) .aes_cbc_Cipher_flush [encCipher ⟨a, ⟨16, s⟩, iv⟩]).1 ++ r =
      (callT T crate (F + 65) (d + 7) .aes_cbc_Cipher_flush [encCipher ⟨a, ⟨16, s'⟩, iv⟩]).1 ++ r') : s = s' ∧ r = r' := by
  rw [trace_Cipher_flush T F d _ key s h rfl hs16, trace_Cipher_flush T F d _ key s' h rfl (by omega),
    same_trace T (F + 65) (d + 6) .pkcs7_Pad_flush (by decide) (.cons (low_pad hs) .nil)] at e
  have hl : ∀ x : List U8, x.length < 16 → (pkcs7 16 x).length = 16 := by
    intro x hx; rw [pkcs7, List.length_append, List.length_replicate]; omega
  simp only [List.cons_append, List.append_assoc, List.cons.injEq, true_and, List.append_cancel_left_eq] at e
  obtain ⟨h1, h2⟩ := encrypt_block_reveals T F d a key h _ _ iv _ _ (hl s hs16) (hl s' (by omega)) _ _ e
  exact ⟨(append_same hs h1).1, by simpa using h2⟩

/-! ### Histories -/

/-- What is called on a `Cipher` with a key. -/
inductive CipherCall where
  | write (data : List U8)
  | flush
deriving DecidableEq

/-- The function of the source and its further arguments. -/
def CipherCall.source : CipherCall → Fn × List Val
  | .write data => (.aes_cbc_Cipher_write, [bytes data])
  | .flush => (.aes_cbc_Cipher_flush, [])

/-- The data is of a size that the computer can hold. -/
def CipherCall.Fits (T : Target) : CipherCall → Prop
  | .write data => data.length + 16 ≤ T.isizeMax
  | .flush => True

/-- What is seen of a history of a `Cipher` with the key `key` (in `a`), unencrypted bytes `s` and initialization vector `iv`. -/
def cipherTrace (T : Target) (F d : Nat) (a : AES) (s : List U8) (iv : Vector U8 16) (ops : List CipherCall) : Trace :=
  (historyT T (F + 65) (d + 8) (encCipher ⟨a, ⟨16, s⟩, iv⟩) (ops.map CipherCall.source)).1

theorem cipherTrace_cons (T : Target) (F d : Nat) (a : AES) (s : List U8) (iv : Vector U8 16) (o : CipherCall) (ops : List CipherCall) :
    ∃ t, cipherTrace T F d a s iv (o :: ops) = .call o.source.1 :: t := by
  obtain ⟨r, hr⟩ := history_fst T (F + 65) (d + 8) (encCipher ⟨a, ⟨16, s⟩, iv⟩) o.source (ops.map CipherCall.source)
  exact ⟨_, hr⟩

theorem cipherTrace_flush (T : Target) (F d : Nat) (a : AES) (key : List U8) (h : Holds a key) (s : List U8) (hs : s.length < 16)
    (iv : Vector U8 16) : ∃ iv' : Vector U8 16, (∀ ops, cipherTrace T F d a s iv (.flush :: ops) =
        .call .aes_cbc_Cipher_flush :: ((callT T crate (F + 65) (d + 8) .aes_cbc_Cipher_flush [encCipher ⟨a, ⟨16, s⟩, iv⟩]).1 ++
          cipherTrace T F d a [] iv' ops)) ∧
      iv'.toList = Spec.Aes.encrypt key (Spec.xorBytes (pkcs7 16 s) iv.toList) := by
  obtain ⟨iv', h1, h2⟩ := cipher_flush_ok T ⟨a, ⟨16, s⟩, iv⟩ key s h rfl hs
  refine ⟨iv', fun ops => ?_, h2⟩
  have e : call T crate (F + 65) (d + 8) .aes_cbc_Cipher_flush [encCipher ⟨a, ⟨16, s⟩, iv⟩] =
      .ok (encRes encAESError bytes (.ok iv'.toList), [encCipher ⟨a, ⟨16, []⟩, iv'⟩]) := by
    rw [src_Cipher_flush T F (d + 1) _ (holds_rounds h) (by simp), h1]
    rfl
  exact history_fst_ok (c := (.aes_cbc_Cipher_flush, [])) e _

theorem cipherTrace_write (T : Target) (F d : Nat) (a : AES) (key : List U8) (h : Holds a key) (s : List U8) (hs : s.length < 16)
    (iv : Vector U8 16) (b : List U8) (hb : b.length + 16 ≤ T.isizeMax) :
    ∃ iv' : Vector U8 16, (∀ ops, cipherTrace T F d a s iv (.write b :: ops) =
        .call .aes_cbc_Cipher_write :: ((callT T crate (F + 65) (d + 8) .aes_cbc_Cipher_write [encCipher ⟨a, ⟨16, s⟩, iv⟩, bytes b]).1 ++
          cipherTrace T F d a ((s ++ b).drop (padCut 16 (s ++ b).length)) iv' ops)) ∧
      iv'.toList = (encBlocks (Spec.Aes.encrypt key) iv.toList (blocks (s ++ b))).getLastD iv.toList := by
  obtain ⟨iv', h1, h2⟩ := cipher_write_ok T ⟨a, ⟨16, s⟩, iv⟩ key s h rfl b
  refine ⟨iv', fun ops => ?_, h2⟩
  have e : call T crate (F + 65) (d + 8) .aes_cbc_Cipher_write [encCipher ⟨a, ⟨16, s⟩, iv⟩, bytes b] =
      .ok (encRes encAESError bytes (.ok (encBlocks (Spec.Aes.encrypt key) iv.toList (blocks (s ++ b))).flatten),
        [encCipher ⟨a, ⟨16, (s ++ b).drop (padCut 16 (s ++ b).length)⟩, iv'⟩]) := by
    rw [src_Cipher_write T F (d + 1) _ b (holds_rounds h) (by simp; omega), h1]
    rfl
  exact history_fst_ok (c := (.aes_cbc_Cipher_write, [bytes b])) e _

theorem history_reveals (T : Target) (F d : Nat) (a : AES) (key : List U8) (h : Holds a key) (ops ops' : List CipherCall)
    (hf : ∀ o ∈ ops, o.Fits T) (hf' : ∀ o ∈ ops', o.Fits T) (s s' : List U8) (hs : s.length = s'.length)
    (hs16 : s.length < 16) (iv : Vector U8 16)
    (e : cipherTrace T F d a s iv (ops ++ [.flush]) = cipherTrace T F d a s' iv (ops' ++ [.flush])) : s = s' ∧ ops = ops' := by
  induction ops generalizing ops' s s' iv with
  | nil =>
    rcases ops' with _ | ⟨_ | _, ops'⟩
    · obtain ⟨v, h1, -⟩ := cipherTrace_flush T F d a key h s hs16 iv
      obtain ⟨v', h1', -⟩ := cipherTrace_flush T F d a key h s' (by omega) iv
      rw [List.nil_append, h1, h1', List.cons.injEq] at e
      exact ⟨(flush_reveals T F (d + 1) a key h s s' hs hs16 iv _ _ e.2).1, rfl⟩
    · obtain ⟨t, ht⟩ := cipherTrace_cons T F d a s iv .flush []
      obtain ⟨t', ht'⟩ := cipherTrace_cons T F d a s' iv (.write _) (ops' ++ [.flush])
      rw [List.nil_append, List.cons_append, ht, ht'] at e
      simp [CipherCall.source] at e
    · obtain ⟨v, h1, -⟩ := cipherTrace_flush T F d a key h s hs16 iv
      obtain ⟨v', h1', -⟩ := cipherTrace_flush T F d a key h s' (by omega) iv
      rw [List.nil_append, List.cons_append, h1, h1', List.cons.injEq] at e
      have := (flush_reveals T F (d + 1) a key h s s' hs hs16 iv _ _ e.2).2
      rcases ops' with _ | ⟨o, ops'⟩
      · obtain ⟨t, ht⟩ := cipherTrace_cons T F d a [] v' .flush []
        rw [List.nil_append, ht] at this
        cases this
      · obtain ⟨t, ht⟩ := cipherTrace_cons T F d a [] v' o (ops' ++ [.flush])
        rw [List.cons_append, ht] at this
        cases this
  | cons o ops ih =>
    rcases o with b | _
    · rcases ops' with _ | ⟨b' | _, ops'⟩
      · obtain ⟨t, ht⟩ := cipherTrace_cons T F d a s iv (.write b) (ops ++ [.flush])
        obtain ⟨t', ht'⟩ := cipherTrace_cons T F d a s' iv .flush []
        rw [List.nil_append, List.cons_append, ht, ht'] at e
        simp [CipherCall.source] at e
      · have hb : b.length + 16 ≤ T.isizeMax := hf (.write b) (by simp)
        have hb' : b'.length + 16 ≤ T.isizeMax := hf' (.write b') (by simp)
        obtain ⟨v, h1, h2⟩ := cipherTrace_write T F d a key h s hs16 iv b hb
        obtain ⟨v', h1', h2'⟩ := cipherTrace_write T F d a key h s' (by omega) iv b' hb'
        rw [List.cons_append, List.cons_append, h1, h1', List.cons.injEq] at e
        obtain ⟨hl, hbl, e⟩ := write_reveals T F (d + 1) a key h s s' hs hs16 iv b b' hb hb' _ _ e.2
        rw [hbl] at h2
        obtain rfl : v = v' := Vector.toList_inj.1 (h2.trans h2'.symm)
        obtain ⟨h3, rfl⟩ := ih ops' (fun o ho => hf o (by simp [ho])) (fun o ho => hf' o (by simp [ho])) _ _
          (by simp [hs, hl]) (by simp [padCut]; omega) v e
        have h4 : s ++ b = s' ++ b' := by rw [← blocks_split (s ++ b), ← blocks_split (s' ++ b'), hbl, h3]
        obtain ⟨rfl, rfl⟩ := append_same hs h4
        exact ⟨rfl, rfl⟩
      · obtain ⟨t, ht⟩ := cipherTrace_cons T F d a s iv (.write b) (ops ++ [.flush])
        obtain ⟨t', ht'⟩ := cipherTrace_cons T F d a s' iv .flush (ops' ++ [.flush])
        rw [List.cons_append, List.cons_append, ht, ht'] at e
        simp [CipherCall.source] at e
    · obtain ⟨v, h1, h2⟩ := cipherTrace_flush T F d a key h s hs16 iv
      obtain ⟨v', h1', h2'⟩ := cipherTrace_flush T F d a key h s' (by omega) iv
      rcases ops' with _ | ⟨b' | _, ops'⟩
      · rw [List.nil_append, List.cons_append, h1, h1', List.cons.injEq] at e
        have := (flush_reveals T F (d + 1) a key h s s' hs hs16 iv _ _ e.2).2
        rcases ops with _ | ⟨o, ops⟩
        · obtain ⟨t, ht⟩ := cipherTrace_cons T F d a [] v .flush []
          rw [List.nil_append, ht] at this
          cases this
        · obtain ⟨t, ht⟩ := cipherTrace_cons T F d a [] v o (ops ++ [.flush])
          rw [List.cons_append, ht] at this
          cases this
      · obtain ⟨t, ht⟩ := cipherTrace_cons T F d a s iv .flush (ops ++ [.flush])
        obtain ⟨t', ht'⟩ := cipherTrace_cons T F d a s' iv (.write b') (ops' ++ [.flush])
        rw [List.cons_append, List.cons_append, ht, ht'] at e
        simp [CipherCall.source] at e
      · rw [List.cons_append, List.cons_append, h1, h1', List.cons.injEq] at e
        obtain ⟨rfl, e'⟩ := flush_reveals T F (d + 1) a key h s s' hs hs16 iv _ _ e.2
        obtain rfl : v = v' := Vector.toList_inj.1 (h2.trans h2'.symm)
        obtain ⟨-, rfl⟩ := ih ops' (fun o ho => hf o (by simp [ho])) (fun o ho => hf' o (by simp [ho])) [] [] rfl (by simp) v e'
        exact ⟨rfl, rfl⟩

/-- **C77.** Whoever sees the execution of `Cipher::new(iv)`, `init` with a valid key, any calls of `write` and `flush`, and a last
`flush`, and knows the initialization vector, learns the key and every byte that was written, and in which calls: two such sessions
look the same only if they are the same. -/
theorem C77 (T : Target) (fuel depth : Nat) (hfuel : 65 ≤ fuel) (hdepth : 8 ≤ depth) (iv : Vector U8 16) (k k' : List U8) (hk : ValidKey k)
    (hk' : ValidKey k') (ops ops' : List CipherCall) (hf : ∀ o ∈ ops, o.Fits T) (hf' : ∀ o ∈ ops', o.Fits T)
    (h : (sessionT T fuel depth (.aes_cbc_Cipher_new, [bytes iv.toList])
          ((.aes_cbc_Cipher_init, [bytes k]) :: (ops ++ [CipherCall.flush]).map CipherCall.source)).1 =
      (sessionT T fuel depth (.aes_cbc_Cipher_new, [bytes iv.toList])
          ((.aes_cbc_Cipher_init, [bytes k']) :: (ops' ++ [CipherCall.flush]).map CipherCall.source)).1) :
    k = k' ∧ ops = ops' := by
  obtain rfl := C74_cipher T fuel depth hfuel hdepth k k' hk hk' iv iv _ _ h
  refine ⟨rfl, ?_⟩
  obtain ⟨F, rfl⟩ := Nat.exists_eq_add_of_le' hfuel
  obtain ⟨d, rfl⟩ := Nat.exists_eq_add_of_le' hdepth
  obtain ⟨a, e, hh⟩ := Aes.init_valid T .new k hk
  have hi : call T crate (F + 65) (d + 8) .aes_cbc_Cipher_init [encCipher (.new iv), bytes k] =
      .ok (encRes encAESError encUnit (.ok ()), [encCipher ⟨a, ⟨16, []⟩, iv⟩]) := by
    rw [src_Cipher_init T F (d + 4), Cipher.init, show (Cipher.new iv).aes = .new from rfl, e]
    rfl
  rw [session_fst (src_Cipher_new T (F + 65) (d + 6) iv), session_fst (src_Cipher_new T (F + 65) (d + 6) iv),
    history_fst_ok (c := (.aes_cbc_Cipher_init, [bytes k])) hi, history_fst_ok (c := (.aes_cbc_Cipher_init, [bytes k])) hi] at h
  simp only [List.append_cancel_left_eq] at h
  exact (history_reveals T F d a k hh ops ops' hf hf' [] [] rfl (by simp) iv h).2

/-- The hypotheses of C77 meet concrete values, and the sessions they describe do look different: the same key, and messages of three
calls that differ in the last byte. -/
example (iv : Vector U8 16) : (sessionT ⟨.w64, true⟩ 65 8 (.aes_cbc_Cipher_new, [bytes iv.toList])
      [(.aes_cbc_Cipher_init, [bytes (List.replicate 32 7)]), (.aes_cbc_Cipher_write, [bytes (List.replicate 20 1)]),
        (.aes_cbc_Cipher_flush, []), (.aes_cbc_Cipher_write, [bytes [1, 2]]), (.aes_cbc_Cipher_flush, [])]).1 ≠
    (sessionT ⟨.w64, true⟩ 65 8 (.aes_cbc_Cipher_new, [bytes iv.toList])
      [(.aes_cbc_Cipher_init, [bytes (List.replicate 32 7)]), (.aes_cbc_Cipher_write, [bytes (List.replicate 20 1)]),
        (.aes_cbc_Cipher_flush, []), (.aes_cbc_Cipher_write, [bytes [1, 3]]), (.aes_cbc_Cipher_flush, [])]).1 := by
  intro h
  have := (C77 ⟨.w64, true⟩ 65 8 (by omega) (by omega) iv (List.replicate 32 7) (List.replicate 32 7) (.inr (.inr rfl)) (.inr (.inr rfl))
    [.write (List.replicate 20 1), .flush, .write [1, 2]] [.write (List.replicate 20 1), .flush, .write [1, 3]]
    (by simp [CipherCall.Fits, Target.isizeMax, Target.bits, Width.bits]) (by simp [CipherCall.Fits, Target.isizeMax, Target.bits, Width.bits]) h).2
  exact absurd this (by decide)

/-! ### `Decipher` -/

/-- What is seen of the loop of `Decipher::write` determines the blocks. -/
theorem decBlocks_reveal (T : Target) (F d : Nat) (a : AES) (key : List U8) (h : Holds a key)
    (bs bs' : List (List U8)) (hb : ∀ b ∈ bs, b.length = 16) (hb' : ∀ b ∈ bs', b.length = 16) (hl : bs.length = bs'.length)
    (s : Vector U8 16 × List U8) (r r' : Trace)
    (e : stateTr (decTr T F d a) (decNext a) bs s ++ r = stateTr (decTr T F d a) (decNext a) bs' s ++ r') :
    bs = bs' ∧ r = r' := by
  induction bs generalizing bs' s with
  | nil =>
    obtain rfl := List.length_eq_zero_iff.1 hl.symm
    exact ⟨rfl, e⟩
  | cons b bs ih =>
    rcases bs' with _ | ⟨b', bs'⟩
    · cases hl
    · obtain ⟨v, rfl⟩ : ∃ v : Vector U8 16, b = v.toList := ⟨⟨b.toArray, by simpa using hb b (by simp)⟩, by simp⟩
      obtain ⟨v', rfl⟩ : ∃ v : Vector U8 16, b' = v.toList := ⟨⟨b'.toArray, by simpa using hb' b' (by simp)⟩, by simp⟩
      simp only [stateTr, decTr, List.append_assoc, List.append_cancel_left_eq] at e
      obtain rfl : v = v' := by
        obtain ⟨nr, ks, h1, h2, h4, h3⟩ := holds_words h
        rw [h4] at e
        exact decrypt_reveals T (F + 65) (d + 2) nr h1 h2 ks h3 _ _ _ _ e
      simp only [List.append_cancel_left_eq] at e
      obtain ⟨rfl, rfl⟩ := ih bs' (fun x hx => hb x (by simp [hx])) (fun x hx => hb' x (by simp [hx])) (by simpa using hl) _ e
      exact ⟨rfl, rfl⟩

/-- What is seen of `Decipher::write` determines how many bytes are written and the blocks that become complete. -/
theorem dec_write_reveals (T : Target) (F d : Nat) (a : AES) (key : List U8) (h : Holds a key) (hold s s' : List U8)
    (hs : s.length = s'.length) (hs16 : s.length < 16) (iv : Vector U8 16) (b b' : List U8) (hb : b.length + 16 ≤ T.isizeMax)
    (hb' : b'.length + 16 ≤ T.isizeMax) (r r' : Trace)
    (e : (callT T crate (F + 65) (d + 6) .aes_cbc_Decipher_write [encDecipher ⟨a, ⟨16, hold⟩, iv, ⟨16, s⟩⟩, bytes b]).1 ++ r =
      (callT T crate (F + 65) (d + 6) .aes_cbc_Decipher_write [encDecipher ⟨a, ⟨16, hold⟩, iv, ⟨16, s'⟩⟩, bytes b']).1 ++ r') :
    b.length = b'.length ∧ blocks (s ++ b) = blocks (s' ++ b') ∧ r = r' := by
  have hd (x b : List U8) := trace_Pad_write_head T (F + 65) (d + 4) ⟨16, x⟩ b
  have hl : b.length = b'.length := by
    have hs1 : ∀ x b : List U8, b.length + 16 ≤ T.isizeMax → x.length < 16 → ∃ t,
        (callT T crate (F + 65) (d + 6) .aes_cbc_Decipher_write [encDecipher ⟨a, ⟨16, hold⟩, iv, ⟨16, x⟩⟩, bytes b]).1 =
          .call .pkcs7_Pad_write :: .count b.length :: t := by
      intro x b hb hx
      have hd := hd x b
      rcases ht : (callT T crate (F + 65) (d + 5) .pkcs7_Pad_write [encPad ⟨16, x⟩, bytes b]).1 with _ | ⟨v, t⟩
      · rw [ht] at hd; cases hd
      · rw [ht] at hd
        cases hd
        by_cases hlt : x.length + b.length < 16
        · exact ⟨_, by rw [trace_Decipher_write_short T (F + 65) (d + 4) _ x b rfl hlt, ht]; rfl⟩
        · exact ⟨_, by rw [trace_Decipher_write T F d _ key x b h rfl (by omega) (by omega) hold rfl, ht]; rfl⟩
    obtain ⟨t, ht⟩ := hs1 s b hb hs16
    obtain ⟨t', ht'⟩ := hs1 s' b' hb' (by omega)
    rw [ht, ht'] at e
    simp only [List.cons_append, List.cons.injEq, true_and, Event.count.injEq] at e
    exact e.1
  refine ⟨hl, ?_⟩
  have hw := same_trace T (F + 65) (d + 5) .pkcs7_Pad_write (by decide) (.cons (low_pad hs) (.cons (low_bytes hl) .nil))
  by_cases hlt : s.length + b.length < 16
  · rw [trace_Decipher_write_short T (F + 65) (d + 4) _ s b rfl hlt, trace_Decipher_write_short T (F + 65) (d + 4) _ s' b' rfl (by omega), hw] at e
    rw [blocks_short _ (by simpa using hlt), blocks_short _ (by simp; omega)]
    simpa using e
  · rw [trace_Decipher_write T F d _ key s b h rfl (by omega) (by omega) hold rfl,
      trace_Decipher_write T F d _ key s' b' h rfl (by omega) (by omega) hold rfl, hw] at e
    have hbl : (blocks (s ++ b)).length = (blocks (s' ++ b')).length := by simp [blocks_length, hs, hl]
    have hll : (s ++ b).length = (s' ++ b').length := by simp [hs, hl]
    rw [hbl, hll] at e
    simp only [List.cons_append, List.append_assoc, List.cons.injEq, true_and, List.append_cancel_left_eq, List.nil_append] at e
    obtain ⟨h1, h2⟩ := decBlocks_reveal T F d a key h _ _ (mem_blocks _) (mem_blocks _) hbl _ _ _ e
    rw [h1] at h2
    exact ⟨h1, List.append_cancel_left h2⟩

/-- The function of the source and its further arguments, of a `Decipher`. -/
def CipherCall.decSource : CipherCall → Fn × List Val
  | .write data => (.aes_cbc_Decipher_write, [bytes data])
  | .flush => (.aes_cbc_Decipher_flush, [])

theorem historyT_ok {T : Target} {fuel depth : Nat} {obj obj' v : Val} {c : Fn × List Val}
    (h : call T crate fuel depth c.1 (obj :: c.2) = .ok (v, [obj'])) (cs : List (Fn × List Val)) :
    historyT T fuel depth obj (c :: cs) =
      (.call c.1 :: (callT T crate fuel depth c.1 (obj :: c.2)).1 ++ (historyT T fuel depth obj' cs).1,
        (historyT T fuel depth obj' cs).2 >>= fun vs => .ok (v :: vs)) := by
  rw [← callT_erase] at h
  rw [historyT, invokeT]
  rcases hc : callT T crate fuel depth c.1 (obj :: c.2) with ⟨t, r⟩
  rw [hc] at h
  obtain rfl : r = _ := h
  rfl

/-- `Decipher::flush` depends on the held-back bytes only. -/
theorem dec_flush (T : Target) (F d : Nat) (a : AES) (hold : List U8) (hh : hold = [] ∨ hold.length = 16) :
    ∃ hold' v t, (hold' = [] ∨ hold'.length = 16) ∧ ∀ (iv : Vector U8 16) (s : List U8),
      call T crate (F + 65) (d + 8) .aes_cbc_Decipher_flush [encDecipher ⟨a, ⟨16, hold⟩, iv, ⟨16, s⟩⟩] =
        .ok (v, [encDecipher ⟨a, ⟨16, hold'⟩, iv, ⟨16, s⟩⟩]) ∧
      (callT T crate (F + 65) (d + 8) .aes_cbc_Decipher_flush [encDecipher ⟨a, ⟨16, hold⟩, iv, ⟨16, s⟩⟩]).1 = t := by
  rcases hh with rfl | hh
  · refine ⟨[], encRes encDecipherError bytes (.error (.PKCS7 .UnfinishedBlock)), _, .inl rfl, fun iv s => ⟨?_,
      trace_Decipher_flush_empty T (F + 65) (d + 6) _ rfl⟩⟩
    rw [src_Decipher_flush T (F + 65) (d + 6), Decipher.flush, unpad_flush_unfinished T 16 [] (by simp)]
    rfl
  · have hl : hold.getLast? = some (hold.getD 15 0) := by
      rw [List.getLast?_eq_getElem?, hh]
      simp [show 15 < hold.length by omega]
    obtain ⟨h1, h2⟩ := unpad_flush_full T 16 (by omega) (by omega) hold _ hh hl
    by_cases hp : padOk 16 hold (hold.getD 15 0)
    · refine ⟨[], encRes encDecipherError bytes (.ok (hold.take (16 - (hold.getD 15 0).toNat))), _, .inl rfl, fun iv s => ⟨?_,
        trace_Decipher_flush T (F + 65) (d + 6) _ hold hh rfl⟩⟩
      rw [src_Decipher_flush T (F + 65) (d + 6), Decipher.flush, h1 hp]
      rfl
    · refine ⟨hold, encRes encDecipherError bytes (.error (.PKCS7 .InvalidPadding)), _, .inr hh, fun iv s => ⟨?_,
        trace_Decipher_flush T (F + 65) (d + 6) _ hold hh rfl⟩⟩
      rw [src_Decipher_flush T (F + 65) (d + 6), Decipher.flush, h2 hp]
      rfl

/-- What is seen of a history of a `Decipher` determines what it returns. -/
theorem dec_history_reveals (T : Target) (F d : Nat) (a : AES) (key : List U8) (h : Holds a key) (ops ops' : List CipherCall)
    (hf : ∀ o ∈ ops, o.Fits T) (hf' : ∀ o ∈ ops', o.Fits T) (hold : List U8) (hh : hold = [] ∨ hold.length = 16)
    (s s' : List U8) (hs : s.length = s'.length) (hs16 : s.length < 16) (iv : Vector U8 16)
    (e : (historyT T (F + 65) (d + 8) (encDecipher ⟨a, ⟨16, hold⟩, iv, ⟨16, s⟩⟩) (ops.map CipherCall.decSource)).1 =
      (historyT T (F + 65) (d + 8) (encDecipher ⟨a, ⟨16, hold⟩, iv, ⟨16, s'⟩⟩) (ops'.map CipherCall.decSource)).1) :
    (historyT T (F + 65) (d + 8) (encDecipher ⟨a, ⟨16, hold⟩, iv, ⟨16, s⟩⟩) (ops.map CipherCall.decSource)).2 =
      (historyT T (F + 65) (d + 8) (encDecipher ⟨a, ⟨16, hold⟩, iv, ⟨16, s'⟩⟩) (ops'.map CipherCall.decSource)).2 := by
  have nonempty : ∀ obj o (ops : List CipherCall), ∃ t,
      (historyT T (F + 65) (d + 8) obj ((o :: ops).map CipherCall.decSource)).1 = .call o.decSource.1 :: t := by
    intro obj o ops
    obtain ⟨r, hr⟩ := history_fst T (F + 65) (d + 8) obj o.decSource (ops.map CipherCall.decSource)
    exact ⟨_, hr⟩
  induction ops generalizing ops' hold s s' iv with
  | nil =>
    rcases ops' with _ | ⟨o, ops'⟩
    · rfl
    · obtain ⟨t, ht⟩ := nonempty (encDecipher ⟨a, ⟨16, hold⟩, iv, ⟨16, s'⟩⟩) o ops'
      rw [ht] at e
      cases e
  | cons o ops ih =>
    rcases ops' with _ | ⟨o', ops'⟩
    · obtain ⟨t, ht⟩ := nonempty (encDecipher ⟨a, ⟨16, hold⟩, iv, ⟨16, s⟩⟩) o ops
      rw [ht] at e
      cases e
    · have ho : o.decSource.1 = o'.decSource.1 := by
        obtain ⟨t, ht⟩ := nonempty (encDecipher ⟨a, ⟨16, hold⟩, iv, ⟨16, s⟩⟩) o ops
        obtain ⟨t', ht'⟩ := nonempty (encDecipher ⟨a, ⟨16, hold⟩, iv, ⟨16, s'⟩⟩) o' ops'
        rw [ht, ht', List.cons.injEq, Event.call.injEq] at e
        exact e.1
      rcases o with b | _ <;> rcases o' with b' | _
      · have hb : b.length + 16 ≤ T.isizeMax := hf (.write b) (by simp)
        have hb' : b'.length + 16 ≤ T.isizeMax := hf' (.write b') (by simp)
        obtain ⟨v, h1, h2⟩ := decipher_write_ok T ⟨a, ⟨16, hold⟩, iv, ⟨16, s⟩⟩ key s hold h rfl rfl (by rcases hh with rfl | hh <;> simp_all) b
        obtain ⟨v', h1', h2'⟩ := decipher_write_ok T ⟨a, ⟨16, hold⟩, iv, ⟨16, s'⟩⟩ key s' hold h rfl rfl (by rcases hh with rfl | hh <;> simp_all) b'
        have g := src_Decipher_write T F (d + 2) ⟨a, ⟨16, hold⟩, iv, ⟨16, s⟩⟩ b (holds_rounds h) (by simp; omega)
        have g' := src_Decipher_write T F (d + 2) ⟨a, ⟨16, hold⟩, iv, ⟨16, s'⟩⟩ b' (holds_rounds h) (by simp; omega)
        rw [h1] at g
        rw [h1'] at g'
        rw [List.map_cons, List.map_cons, historyT_ok (depth := d + 8) (c := CipherCall.decSource (.write b)) g,
          historyT_ok (depth := d + 8) (c := CipherCall.decSource (.write b')) g'] at e
        rw [List.map_cons, List.map_cons, historyT_ok (depth := d + 8) (c := CipherCall.decSource (.write b)) g,
          historyT_ok (depth := d + 8) (c := CipherCall.decSource (.write b')) g']
        obtain ⟨hl, hbl, e⟩ := dec_write_reveals T F (d + 2) a key h hold s s' hs hs16 iv b b' hb hb' _ _ (List.cons.inj e).2
        simp only [hbl] at h2 e ⊢
        obtain rfl : v = v' := Vector.toList_inj.1 (h2.trans h2'.symm)
        have hold' : ∀ x : List U8, (hold ++ x).length % 16 = 0 → (hold ++ x).drop (unpadCut 16 (hold ++ x).length) = [] ∨
            ((hold ++ x).drop (unpadCut 16 (hold ++ x).length)).length = 16 := by
          intro x hx
          rw [unpadCut_whole _ hx, ← List.length_eq_zero_iff, List.length_drop]
          omega
        have hm : (hold ++ (decBlocks (Spec.Aes.decrypt key) iv.toList (blocks (s' ++ b'))).flatten).length % 16 = 0 := by
          rw [List.length_append, flatten_len16 _ (mem_decBlocks key _ (by simp) _ (mem_blocks _))]
          rcases hh with rfl | hh
          · simp
          · omega
        rw [ih ops' (fun o ho => hf o (by simp [ho])) (fun o ho => hf' o (by simp [ho])) _ (hold' _ hm) _ _
          (by simp [hs, hl]) (by simp [padCut]; omega) v e]
      · cases ho
      · cases ho
      · obtain ⟨hold', v, t, h1, h2⟩ := dec_flush T F d a hold hh
        rw [List.map_cons, List.map_cons, historyT_ok (c := CipherCall.decSource .flush) (h2 iv s).1,
          historyT_ok (c := CipherCall.decSource .flush) (h2 iv s').1] at e
        rw [List.map_cons, List.map_cons, historyT_ok (c := CipherCall.decSource .flush) (h2 iv s).1,
          historyT_ok (c := CipherCall.decSource .flush) (h2 iv s').1]
        simp only [CipherCall.decSource, (h2 iv s).2, (h2 iv s').2, List.append_cancel_left_eq] at e
        simp only [ih ops' (fun o ho => hf o (by simp [ho])) (fun o ho => hf' o (by simp [ho])) hold' h1 s s' hs hs16 iv e]

theorem session_ok {T : Target} {fuel depth : Nat} {new : Fn × List Val} {obj : Val} {os : List Val}
    (h : call T crate fuel depth new.1 new.2 = .ok (obj, os)) (cs : List (Fn × List Val)) :
    sessionT T fuel depth new cs = (.call new.1 :: (callT T crate fuel depth new.1 new.2).1 ++ (historyT T fuel depth obj cs).1,
      (historyT T fuel depth obj cs).2) := by
  rw [← callT_erase] at h
  rw [sessionT]
  rcases hc : callT T crate fuel depth new.1 new.2 with ⟨t, r⟩
  rw [hc] at h
  obtain rfl : r = _ := h
  rfl

/-- **C77.** Whoever sees the execution of `Decipher::new(iv)`, `init` with a valid key, and any calls of `write` and `flush`, and
knows the initialization vector, learns the key and everything these calls return, the decrypted text: two such sessions look the
same only if they have the same key and the same results. -/
theorem C77_decipher (T : Target) (fuel depth : Nat) (hfuel : 65 ≤ fuel) (hdepth : 8 ≤ depth) (iv : Vector U8 16) (k k' : List U8)
    (hk : ValidKey k) (hk' : ValidKey k') (ops ops' : List CipherCall) (hf : ∀ o ∈ ops, o.Fits T) (hf' : ∀ o ∈ ops', o.Fits T)
    (h : (sessionT T fuel depth (.aes_cbc_Decipher_new, [bytes iv.toList])
          ((.aes_cbc_Decipher_init, [bytes k]) :: ops.map CipherCall.decSource)).1 =
      (sessionT T fuel depth (.aes_cbc_Decipher_new, [bytes iv.toList])
          ((.aes_cbc_Decipher_init, [bytes k']) :: ops'.map CipherCall.decSource)).1) :
    k = k' ∧ (sessionT T fuel depth (.aes_cbc_Decipher_new, [bytes iv.toList])
          ((.aes_cbc_Decipher_init, [bytes k]) :: ops.map CipherCall.decSource)).2 =
      (sessionT T fuel depth (.aes_cbc_Decipher_new, [bytes iv.toList])
          ((.aes_cbc_Decipher_init, [bytes k']) :: ops'.map CipherCall.decSource)).2 := by
  obtain rfl := C74_decipher T fuel depth hfuel hdepth k k' hk hk' iv iv _ _ h
  refine ⟨rfl, ?_⟩
  obtain ⟨F, rfl⟩ := Nat.exists_eq_add_of_le' hfuel
  obtain ⟨d, rfl⟩ := Nat.exists_eq_add_of_le' hdepth
  obtain ⟨a, e, hh⟩ := Aes.init_valid T .new k hk
  have hi : call T crate (F + 65) (d + 8) .aes_cbc_Decipher_init [encDecipher (.new iv), bytes k] =
      .ok (encRes encAESError encUnit (.ok ()), [encDecipher ⟨a, ⟨16, []⟩, iv, ⟨16, []⟩⟩]) := by
    rw [src_Decipher_init T F (d + 4), Decipher.init, show (Decipher.new iv).aes = .new from rfl, e]
    rfl
  rw [session_ok (src_Decipher_new T (F + 65) (d + 6) iv), session_ok (src_Decipher_new T (F + 65) (d + 6) iv),
    historyT_ok (c := (.aes_cbc_Decipher_init, [bytes k])) hi, historyT_ok (c := (.aes_cbc_Decipher_init, [bytes k])) hi] at h ⊢
  simp only [List.append_cancel_left_eq] at h
  simp only [dec_history_reveals T F d a k hh ops ops' hf hf' [] (.inl rfl) [] [] rfl (by simp) iv h]

/-- The hypotheses of `C77_decipher` are met by different sessions: bytes that do not complete a block are not seen, and do not matter
for the results. -/
example (T : Target) (iv : Vector U8 16) (k : List U8) (hk : ValidKey k) (x y : U8) :
    (sessionT T 65 8 (.aes_cbc_Decipher_new, [bytes iv.toList])
        [(.aes_cbc_Decipher_init, [bytes k]), (.aes_cbc_Decipher_write, [bytes [x]])]).1 =
      (sessionT T 65 8 (.aes_cbc_Decipher_new, [bytes iv.toList])
        [(.aes_cbc_Decipher_init, [bytes k]), (.aes_cbc_Decipher_write, [bytes [y]])]).1 := by
  obtain ⟨a, e, hh⟩ := Aes.init_valid T .new k hk
  have hi : call T crate 65 8 .aes_cbc_Decipher_init [encDecipher (.new iv), bytes k] =
      .ok (encRes encAESError encUnit (.ok ()), [encDecipher ⟨a, ⟨16, []⟩, iv, ⟨16, []⟩⟩]) := by
    rw [src_Decipher_init T 0 4, Decipher.init, show (Decipher.new iv).aes = .new from rfl, e]
    rfl
  have hw : ∀ x : U8, ∃ v obj, call T crate 65 8 .aes_cbc_Decipher_write [encDecipher ⟨a, ⟨16, []⟩, iv, ⟨16, []⟩⟩, bytes [x]] =
      .ok (v, [obj]) := by
    intro x
    obtain ⟨v, h1, h2⟩ := decipher_write_ok T ⟨a, ⟨16, []⟩, iv, ⟨16, []⟩⟩ k [] [] hh rfl rfl (by simp) [x]
    have g := src_Decipher_write T 0 2 ⟨a, ⟨16, []⟩, iv, ⟨16, []⟩⟩ [x] (holds_rounds hh) (by
      rcases T with ⟨_ | _, _⟩ <;> simp [Target.isizeMax, Target.bits, Width.bits])
    rw [h1] at g
    exact ⟨_, _, g⟩
  obtain ⟨v, o, h1⟩ := hw x
  obtain ⟨v', o', h1'⟩ := hw y
  have ht : ∀ x : U8, (callT T crate 65 8 .aes_cbc_Decipher_write [encDecipher ⟨a, ⟨16, []⟩, iv, ⟨16, []⟩⟩, bytes [x]]).1 = _ :=
    fun x => trace_Decipher_write_short T 65 6 ⟨a, ⟨16, []⟩, iv, ⟨16, []⟩⟩ [] [x] rfl (by simp)
  rw [session_ok (src_Decipher_new T 65 6 iv), session_ok (src_Decipher_new T 65 6 iv),
    historyT_ok (c := (.aes_cbc_Decipher_init, [bytes k])) hi, historyT_ok (c := (.aes_cbc_Decipher_init, [bytes k])) hi,
    historyT_ok (c := (.aes_cbc_Decipher_write, [bytes [x]])) h1, historyT_ok (c := (.aes_cbc_Decipher_write, [bytes [y]])) h1']
  simp only [ht, historyT, same_trace T 65 7 .pkcs7_Pad_write (by decide) (.cons (low_pad rfl) (.cons (low_bytes (show [x].length = [y].length from rfl)) .nil))]

end Verif.Props.SideChannel
