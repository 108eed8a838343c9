import Verif.Source.TraceCbc
import Verif.Proof.CbcMachine

/-! What is seen of `Cipher::write` and `Cipher::flush`. -/

set_option linter.constructorNameAsVariable false
set_option backward.isDefEq.respectTransparency false
namespace Verif.Source
open Verif Verif.Aes Verif.AesCbc Verif.Pkcs7

/-- What is seen of one round of a loop over `place.iter_mut().zip(ys)`. -/
def zipTr (p : Path) (x : Id) (pat : Pat) (seen : Env → Trace) (ky : Nat × Val) (env : Env) : Trace :=
  match matchPat pat ky.2 with
  | some bs => mutTr p x bs seen ky.1 env
  | none => []

@[src] theorem trace_forMutZip (K : CtxT) (env : Env) (x : Id) (pat : Pat) (place e body : Expr) :
    (evalT K (.forMutZip x pat place e body) env).1 =
      (evalPlaceT K place env).1 ++ after (evalPlace K.erase place env) fun p env => after (readPath p env) fun v env =>
        after (ofSeq v env) fun xs env => (evalT K e env).1 ++ after (eval K.erase e env) fun w env => after (ofSeq w env) fun ys env =>
          .count xs.length :: .count ys.length ::
            loopTr (zipTr p x pat (seenOf K body)) (zipStep p x pat (eval K.erase body))
              ((List.range xs.length).zip ys) env := by
  rw [evalT]; trace_eq []
  congr 2; funext p env; congr 1; funext v env; congr 1; funext xs env; congr 2; funext w env; congr 1; funext ys env
  show Event.count xs.length :: Event.count ys.length :: _ = _
  congr 2
  rw [forLoopT_trace (step' := zipStep p x pat (eval K.erase body))]
  · show loopTr _ _ _ env = loopTr _ _ _ env
    congr 1
    funext ky env
    rw [zipTr]
    rcases matchPat pat ky.2 with _ | bs
    · rfl
    · exact mutStepT_fst ..
  · intro ky
    rw [zipStep]
    rcases matchPat pat ky.2 with _ | bs
    · exact .quiet _
    · exact .mutStep _ _ _ (evalT_erase K body) _

variable (T : Target) (F d : Nat)

theorem holds_rounds {a : AES} {key : List U8} (h : Verif.Props.Aes.Holds a key) : a.round_count ≤ 14 := by
  obtain ⟨h1, h2, -⟩ := h
  rcases h1 with h1 | h1 | h1 <;> omega

/-- What is seen of `encrypt_block` with a key. -/
theorem trace_encrypt_block (c : Cipher) (key : List U8) (h : Verif.Props.Aes.Holds c.aes key) (v : Vector U8 16) :
    (callT T crate (F + 65) (d + 6) .aes_cbc_Cipher_encrypt_block [encCipher c, bytes v.toList]).1 =
      [.count 16, .sizes [16, 16], .count 16, .count 16, .call .aes_AES_encrypt] ++
        (callT T crate (F + 65) (d + 5) .aes_AES_encrypt [encAES c.aes, bytes (xorBlock v c.iv).toList]).1 ++ [.branch true] := by
  show (evalT (ctxT T (F + 65) (d + 5)) Gen.fn_aes_cbc_Cipher_encrypt_block.body [(.self, encCipher c), (.b, bytes v.toList)]).1 = _
  evaluate [Gen.fn_aes_cbc_Cipher_encrypt_block, encCipher, ctxT_erase]
  obtain ⟨o, ho, -⟩ := h.encrypt (xorBlock v c.iv)
  have hr := holds_rounds h
  rw [loopTr_quiet (fun env => ∃ s : List U8, s.length = 16 ∧ env = [(.block, bytes s), (.self, encCipher c), (.b, bytes v.toList)])]
  · erw [forLoop_iterZip Val.u8 (fun s => [(.block, bytes s), (.self, encCipher c), (.b, bytes v.toList)])
      (fun x y => x ^^^ y) (xs := v.toList) (by simp)]
    · rw [xor_zipUpd]
      evaluate [encCipher, src_AES_encrypt, hr, ho, encRes, ctxT_erase]
    · intro i hi y s k
      evaluate [zipStep, encCipher]
  · rintro ⟨i, y⟩ hx env ⟨s, hs, rfl⟩
    obtain ⟨hi, hy⟩ := List.of_mem_zip (show (i, y) ∈ List.zip _ _ from hx)
    obtain ⟨y, -, rfl⟩ := List.mem_map.1 hy
    have hi : i < s.length := by simpa [hs] using hi
    have hi' : idx s i = .ok s[i] := idx_ok s i hi
    evaluate [zipTr, ctxT_erase, encCipher, mutTr, hi']
  · rintro ⟨i, y⟩ hx env ⟨s, hs, rfl⟩
    obtain ⟨hi, hy⟩ := List.of_mem_zip (show (i, y) ∈ List.zip _ _ from hx)
    obtain ⟨y, -, rfl⟩ := List.mem_map.1 hy
    have hi : i < s.length := by simpa [hs] using hi
    have hi' : idx s i = .ok s[i] := idx_ok s i hi
    have hu : upd s i (s[i] ^^^ y) = .ok (s.set i (s[i] ^^^ y)) := upd_ok _ _ _ hi
    refine ⟨_, ⟨s.set i (s[i] ^^^ y), by simpa using hs, rfl⟩, fun k => ?_⟩
    evaluate [zipStep, encCipher, hi', hu]
  · exact ⟨v.toList, by simp, rfl⟩

theorem trace_Pad_write_head (p : Pad) (b : List U8) :
    (callT T crate F (d + 1) .pkcs7_Pad_write [encPad p, bytes b]).1.head? = some (.count b.length) := by
  show (evalT (ctxT T F d) Gen.fn_pkcs7_Pad_write.body [(.self, encPad p), (.buf, bytes b)]).1.head? = _
  evaluate [Gen.fn_pkcs7_Pad_write, encPad, ctxT_erase]

/-- What is seen of a loop whose rounds show `t` and turn the state `s` into `next`. -/
def stateTr {α σ : Type} (t : α → σ → Trace) (next : α → σ → σ) : List α → σ → Trace
  | [], _ => []
  | x :: xs, s => t x s ++ stateTr t next xs (next x s)

theorem loop_state_end {α β σ : Type} {seen : α → Env → Trace} {step : α → E Val} (env : σ → Env) (Inv : σ → Prop)
    (t : β → σ → Trace) (next : β → σ → σ) (f : β → α) (xs : List β) (s : σ) {k : Val → Env → Trace}
    (h : ∀ x ∈ xs, ∀ s, Inv s → seen (f x) (env s) = t x s ∧ Inv (next x s) ∧
      ∀ k, nextIter (inScope (step (f x)) (env s)) k = k (env (next x s))) (h0 : Inv s)
    (g : σ → Trace) (hk : ∀ s, Inv s → k .unit (env s) = g s) :
    loopTr seen step (xs.map f) (env s) ++ after (forLoop step (xs.map f) (env s)) k =
      stateTr t next xs s ++ g (xs.foldl (fun s x => next x s) s) := by
  induction xs generalizing s with
  | nil => exact hk s h0
  | cons x xs ih =>
    obtain ⟨h1, h2, h3⟩ := h x (by simp) s h0
    rw [List.map_cons, loopTr_cons, forLoop_cons, h1, h3, h3, after_val, List.append_assoc, ih _ (fun y hy => h y (by simp [hy])) h2,
      stateTr, List.append_assoc]
    rfl

/-- `encrypt_block` in a loop that collects the ciphertext. -/
def encNext (b : List U8) (s : Cipher × List U8) : Cipher × List U8 :=
  match s.1.encrypt_block b with
  | .ok (c, .ok o) => (c, s.2 ++ o)
  | _ => s

/-- What is seen of one round of the loop of `Cipher::write`. -/
def encTr (b : List U8) (s : Cipher × List U8) : Trace :=
  .call .aes_cbc_Cipher_encrypt_block ::
      ((callT T crate (F + 65) (d + 6) .aes_cbc_Cipher_encrypt_block [encCipher s.1, bytes b]).1 ++
        [.branch true, .sizes [s.2.length, 16]])

theorem trace_Cipher_write_short (c : Cipher) (s b : List U8) (hp : c.pad = ⟨16, s⟩) (hs : s.length + b.length < 16) :
    (callT T crate F (d + 2) .aes_cbc_Cipher_write [encCipher c, bytes b]).1 =
      .call .pkcs7_Pad_write :: ((callT T crate F (d + 1) .pkcs7_Pad_write [encPad ⟨16, s⟩, bytes b]).1 ++ [.branch true]) := by
  show (evalT (ctxT T F (d + 1)) Gen.fn_aes_cbc_Cipher_write.body [(.self, encCipher c), (.b, bytes b)]).1 = _
  obtain ⟨o, h1, h2, h3⟩ := pad_write T 16 (by decide) s b
  obtain rfl := h3.2 (by simpa using hs)
  evaluate [Gen.fn_aes_cbc_Cipher_write, encCipher, ctxT_erase, src_Pad_write, hp, h1, encOptBytes]

theorem trace_Cipher_write (c : Cipher) (key s b : List U8) (h : Verif.Props.Aes.Holds c.aes key) (hp : c.pad = ⟨16, s⟩)
    (hl : s.length + b.length ≤ T.isizeMax) (hs : 16 ≤ s.length + b.length) :
    (callT T crate (F + 65) (d + 7) .aes_cbc_Cipher_write [encCipher c, bytes b]).1 =
      .call .pkcs7_Pad_write :: ((callT T crate (F + 65) (d + 6) .pkcs7_Pad_write [encPad ⟨16, s⟩, bytes b]).1 ++
       [.branch false, .branch true, .sizes [padCut 16 (s ++ b).length], .sizes [padCut 16 (s ++ b).length],
          .sizes [padCut 16 (s ++ b).length, 16], .count (Spec.Cbc.blocks (s ++ b)).length] ++
        stateTr (encTr T F d) encNext (Spec.Cbc.blocks (s ++ b))
          (⟨c.aes, ⟨16, (s ++ b).drop (padCut 16 (s ++ b).length)⟩, c.iv⟩, [])) := by
  show (evalT (ctxT T (F + 65) (d + 6)) Gen.fn_aes_cbc_Cipher_write.body [(.self, encCipher c), (.b, bytes b)]).1 = _
  obtain ⟨o, h1, h2, h3⟩ := pad_write T 16 (by decide) s b
  have hr : T.reserve 1 (padCut 16 (s ++ b).length) = .ok () := T.reserve_ok (by simp [padCut]; omega)
  have hm : min (padCut 16 (s ++ b).length) (s ++ b).length = padCut 16 (s ++ b).length := by simp [padCut]; omega
  have hc := chunks_ok (s ++ b)
  rcases o with _ | o
  · have := h3.1 rfl
    simp at this
    omega
  obtain rfl : o = (s ++ b).take (padCut 16 (s ++ b).length) := h2
  generalize (s ++ b).drop (padCut 16 (s ++ b).length) = s' at *
  have hL : ((s ++ b).take (padCut 16 (s ++ b).length)).length = padCut 16 (s ++ b).length := by simpa using hm
  generalize (s ++ b).take (padCut 16 (s ++ b).length) = h' at *
  generalize padCut 16 (s ++ b).length = n at *
  evaluate [Gen.fn_aes_cbc_Cipher_write, encCipher, ctxT_erase, src_Pad_write, hp, h1, encOptBytes, hr, hL, hc]
  rw [List.map_map]
  refine (loop_state_end (fun s : Cipher × List U8 => [(.result, bytes s.2), (.blocks, bytes h'), (.self, encCipher s.1), (.b, bytes b)])
    (fun s => Verif.Props.Aes.Holds s.1.aes key) (encTr T F d) encNext (Val.seq ∘ List.map Val.u8) _ (⟨c.aes, ⟨16, s'⟩, c.iv⟩, []) ?_ h
    (fun _ => []) ?_).trans (by simp)
  · rintro x hx ⟨c, o⟩ hc
    obtain ⟨iv, e, -⟩ := encrypt_block_ok c key hc x (mem_blocks _ x hx)
    have h2 := src_encrypt_block T F d c x (holds_rounds hc)
    have hn : encNext x (c, o) = (⟨c.aes, c.pad, iv⟩, o ++ iv.toList) := by simp [encNext, e]
    rw [e] at h2
    simp only [bytes] at h2
    rw [hn]
    refine ⟨?_, hc, fun k => ?_⟩
    · evaluate [encTr, h2, encRes, ctxT_erase]
    · evaluate [h2, encRes]
  · rintro ⟨c, o⟩ hc
    evaluate [ctxT_erase]

theorem trace_Cipher_flush (c : Cipher) (key s : List U8) (h : Verif.Props.Aes.Holds c.aes key) (hp : c.pad = ⟨16, s⟩)
    (hs : s.length < 16) :
    (callT T crate (F + 65) (d + 7) .aes_cbc_Cipher_flush [encCipher c]).1 =
      .call .pkcs7_Pad_flush :: ((callT T crate (F + 65) (d + 6) .pkcs7_Pad_flush [encPad ⟨16, s⟩]).1 ++
        .call .aes_cbc_Cipher_encrypt_block ::
          ((callT T crate (F + 65) (d + 6) .aes_cbc_Cipher_encrypt_block
            [encCipher ⟨c.aes, ⟨16, []⟩, c.iv⟩, bytes (Spec.Cbc.pkcs7 16 s)]).1 ++ [.branch true])) := by
  show (evalT (ctxT T (F + 65) (d + 6)) Gen.fn_aes_cbc_Cipher_flush.body [(.self, encCipher c)]).1 = _
  have e : s ++ List.replicate (16 - s.length) (BitVec.ofNat 8 (16 - s.length)) = Spec.Cbc.pkcs7 16 s := by
    rw [Spec.Cbc.pkcs7, Nat.mod_eq_of_lt hs]
  have hf := pad_flush T 16 s (by omega)
  rw [e] at hf
  have hl : (Spec.Cbc.pkcs7 16 s).length = 16 := by
    rw [← e, List.length_append, List.length_replicate]; omega
  obtain ⟨iv, h1, h2⟩ := encrypt_block_ok ⟨c.aes, ⟨16, []⟩, c.iv⟩ key h (Spec.Cbc.pkcs7 16 s) hl
  have h3 := src_encrypt_block T F d ⟨c.aes, ⟨16, []⟩, c.iv⟩ (Spec.Cbc.pkcs7 16 s) (holds_rounds h)
  rw [h1] at h3
  simp only [bytes, encCipher] at h3
  generalize Spec.Cbc.pkcs7 16 s = q at *
  have hg := src_Pad_flush T (F + 65) (d + 5) ⟨16, s⟩ (by simp)
  evaluate [Gen.fn_aes_cbc_Cipher_flush, encCipher, ctxT_erase, src_Pad_flush, hp, hf, h3, encRes, hg]

/-! ### `Decipher` -/

theorem trace_Decipher_write_short (c : Decipher) (s b : List U8) (hp : c.buffer = ⟨16, s⟩) (hs : s.length + b.length < 16) :
    (callT T crate F (d + 2) .aes_cbc_Decipher_write [encDecipher c, bytes b]).1 =
      .call .pkcs7_Pad_write :: ((callT T crate F (d + 1) .pkcs7_Pad_write [encPad ⟨16, s⟩, bytes b]).1 ++ [.branch false, .branch true]) := by
  show (evalT (ctxT T F (d + 1)) Gen.fn_aes_cbc_Decipher_write.body [(.self, encDecipher c), (.b, bytes b)]).1 = _
  obtain ⟨o, h1, h2, h3⟩ := pad_write T 16 (by decide) s b
  obtain rfl := h3.2 (by simpa using hs)
  evaluate [Gen.fn_aes_cbc_Decipher_write, encDecipher, ctxT_erase, src_Pad_write, hp, h1, encOptBytes]

/-- The loop of `Decipher::write`: the initialization vector, and the cleartext so far. -/
def decNext (a : AES) (b : List U8) (s : Vector U8 16 × List U8) : Vector U8 16 × List U8 :=
  match arrayFromSlice BLOCK_SIZE b with
  | .ok v =>
    match a.decrypt v with
    | .ok (.ok o) => (v, s.2 ++ (xorBlock o s.1).toList)
    | _ => s
  | .error _ => s

/-- What is seen of one round of the loop of `Decipher::write`. -/
def decTr (a : AES) (b : List U8) (s : Vector U8 16 × List U8) : Trace :=
  [.count 16, .sizes [16, 16], .call .aes_AES_decrypt] ++ (callT T crate (F + 65) (d + 5) .aes_AES_decrypt [encAES a, bytes b]).1 ++
    [.branch false, .branch true, .count 16, .count 16, .sizes [s.2.length, 16]]

/-- What is seen of the end of `Decipher::write`. -/
def unpadTr (u : Unpad) (o : List U8) : Trace :=
  .call .pkcs7_Unpad_write :: ((callT T crate (F + 65) (d + 5) .pkcs7_Unpad_write [encUnpad u, bytes o]).1 ++
    [.sizes (sizeOfVal (encOptBytes (match u.write T o with | .ok r => r.2 | .error _ => none)))])

theorem trace_Decipher_write (c : Decipher) (key s b : List U8) (h : Verif.Props.Aes.Holds c.aes key) (hp : c.buffer = ⟨16, s⟩)
    (hl : s.length + b.length ≤ T.isizeMax) (hs : 16 ≤ s.length + b.length) (hold : List U8)
    (hu : c.unpad = ⟨16, hold⟩) :
    (callT T crate (F + 65) (d + 6) .aes_cbc_Decipher_write [encDecipher c, bytes b]).1 =
      .call .pkcs7_Pad_write :: ((callT T crate (F + 65) (d + 5) .pkcs7_Pad_write [encPad ⟨16, s⟩, bytes b]).1 ++
        [.branch true, .sizes [padCut 16 (s ++ b).length], .sizes [padCut 16 (s ++ b).length],
          .sizes [padCut 16 (s ++ b).length, 16], .count (Spec.Cbc.blocks (s ++ b)).length] ++
        (stateTr (decTr T F d c.aes) (decNext c.aes) (Spec.Cbc.blocks (s ++ b)) (c.iv, []) ++
          unpadTr T F d ⟨16, hold⟩ ((Spec.Cbc.blocks (s ++ b)).foldl (fun s x => decNext c.aes x s) (c.iv, [])).2)) := by
  show (evalT (ctxT T (F + 65) (d + 5)) Gen.fn_aes_cbc_Decipher_write.body [(.self, encDecipher c), (.b, bytes b)]).1 = _
  obtain ⟨o, h1, h2, h3⟩ := pad_write T 16 (by decide) s b
  have hr : T.reserve 1 (padCut 16 (s ++ b).length) = .ok () := T.reserve_ok (by simp [padCut]; omega)
  have hm : min (padCut 16 (s ++ b).length) (s ++ b).length = padCut 16 (s ++ b).length := by simp [padCut]; omega
  have hc := chunks_ok (s ++ b)
  rcases o with _ | o
  · have := h3.1 rfl
    simp at this
    omega
  obtain rfl : o = (s ++ b).take (padCut 16 (s ++ b).length) := h2
  generalize (s ++ b).drop (padCut 16 (s ++ b).length) = s' at *
  have hL : ((s ++ b).take (padCut 16 (s ++ b).length)).length = padCut 16 (s ++ b).length := by simpa using hm
  generalize (s ++ b).take (padCut 16 (s ++ b).length) = h' at *
  generalize padCut 16 (s ++ b).length = n at *
  evaluate [Gen.fn_aes_cbc_Decipher_write, encDecipher, ctxT_erase, src_Pad_write, hp, h1, encOptBytes, hr, hL, hc]
  rw [List.map_map]
  refine (loop_state_end (fun s : Vector U8 16 × List U8 => [(.padded_result, bytes s.2), (.blocks, bytes h'),
      (.self, encDecipher ⟨c.aes, c.unpad, s.1, ⟨16, s'⟩⟩), (.b, bytes b)])
    (fun _ => True) (decTr T F d c.aes) (decNext c.aes) (Val.seq ∘ List.map Val.u8) _ (c.iv, []) ?_ trivial
    (fun s => unpadTr T F d ⟨16, hold⟩ s.2) ?_)
  · rintro x hx ⟨iv, o⟩ -
    obtain ⟨v, rfl⟩ : ∃ v : Vector U8 16, x = v.toList := ⟨⟨x.toArray, by simpa using mem_blocks _ x hx⟩, by simp⟩
    obtain ⟨q, hq, -⟩ := h.decrypt v
    have hd := src_AES_decrypt T F d c.aes v (holds_rounds h)
    rw [hq] at hd
    simp only [bytes] at hd
    have hn : decNext c.aes v.toList (iv, o) = (v, o ++ (xorBlock q iv).toList) := by simp [decNext, arrayFromSlice_toList, hq]
    rw [hn]
    refine ⟨?_, trivial, fun k => ?_⟩
    · evaluate [encDecipher, hd, hq, encRes, ctxT_erase, decTr]
      rw [loopTr_quiet (fun env => ∃ z : List U8, z.length = 16 ∧ env = [(.cleartext, bytes z), (.block, bytes v.toList),
        (.ciphertext, bytes v.toList), (.padded_result, bytes o), (.blocks, bytes h'),
        (.self, encDecipher ⟨c.aes, c.unpad, iv, ⟨16, s'⟩⟩), (.b, bytes b)])]
      · erw [forLoop_iterZip Val.u8 (fun z => [(.cleartext, bytes z), (.block, bytes v.toList), (.ciphertext, bytes v.toList),
          (.padded_result, bytes o), (.blocks, bytes h'), (.self, encDecipher ⟨c.aes, c.unpad, iv, ⟨16, s'⟩⟩), (.b, bytes b)])
          (fun x y => x ^^^ y) (xs := q.toList) (by simp)]
        · rw [xor_zipUpd]
          evaluate [encDecipher, ctxT_erase]
        · intro i hi y s k
          evaluate [zipStep, encDecipher]
      · rintro ⟨i, y⟩ hx env ⟨z, hs, rfl⟩
        obtain ⟨hi, hy⟩ := List.of_mem_zip (show (i, y) ∈ List.zip _ _ from hx)
        obtain ⟨y, -, rfl⟩ := List.mem_map.1 hy
        have hi : i < z.length := by simpa [hs] using hi
        have hi' : idx z i = .ok z[i] := idx_ok z i hi
        evaluate [zipTr, ctxT_erase, encDecipher, mutTr, hi']
      · rintro ⟨i, y⟩ hx env ⟨z, hs, rfl⟩
        obtain ⟨hi, hy⟩ := List.of_mem_zip (show (i, y) ∈ List.zip _ _ from hx)
        obtain ⟨y, -, rfl⟩ := List.mem_map.1 hy
        have hi : i < z.length := by simpa [hs] using hi
        have hi' : idx z i = .ok z[i] := idx_ok z i hi
        have hu : upd z i (z[i] ^^^ y) = .ok (z.set i (z[i] ^^^ y)) := upd_ok _ _ _ hi
        refine ⟨_, ⟨z.set i (z[i] ^^^ y), by simpa using hs, rfl⟩, fun k => ?_⟩
        evaluate [zipStep, encDecipher, hi', hu]
      · exact ⟨q.toList, by simp, rfl⟩
    · evaluate [encDecipher, hd, hq, encRes]
      erw [forLoop_iterZip Val.u8 (fun z => [(.cleartext, bytes z), (.block, bytes v.toList), (.ciphertext, bytes v.toList),
          (.padded_result, bytes o), (.blocks, bytes h'), (.self, encDecipher ⟨c.aes, c.unpad, iv, ⟨16, s'⟩⟩), (.b, bytes b)])
          (fun x y => x ^^^ y) (xs := q.toList) (by simp)]
      · rw [xor_zipUpd]
        evaluate [encDecipher]
      · intro i hi y s k
        evaluate [zipStep, encDecipher]
  · rintro ⟨iv, o⟩ -
    obtain ⟨q, hq, -⟩ := unpad_write T 16 (by decide) hold o
    have hg := src_Unpad_write T (F + 65) (d + 4) ⟨16, hold⟩ o
    rw [hq] at hg
    simp only [bytes] at hg
    rcases q with _ | q
    · evaluate [encDecipher, ctxT_erase, hg, hu, unpadTr, hq, encOptBytes]
    · evaluate [encDecipher, ctxT_erase, hg, hu, unpadTr, hq, encOptBytes]

end Verif.Source
