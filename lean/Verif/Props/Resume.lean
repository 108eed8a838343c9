import Verif.Props.Guess

/-!
C84: work on a stream can be taken up by a new object. The ciphertext alone says where to go on: the initialization vector of the new
`Cipher` or `Decipher` is the last ciphertext block before the place.
-/

set_option linter.constructorNameAsVariable false

namespace Verif.Props.Resume
open Verif Verif.AesCbc Verif.Source Verif.Props.Source Verif.Props.CbcSplit Verif.Props.Guess Spec.Cbc
open Verif.Props.CbcHistory (tail_tail)

/-- What has been written since the last `flush`. -/
def sinceFlush : List U8 → List Spec.Cbc.Call → List U8
  | s, [] => s
  | s, .write b :: xs => sinceFlush (s ++ b) xs
  | _, .flush :: xs => sinceFlush [] xs
  | s, .init _ :: xs => sinceFlush s xs

/-- The bytes written that are not in any answer yet: what is left of the bytes written since the last `flush` after their whole
blocks. -/
def unsent (xs : List Spec.Cbc.Call) : List U8 := tail (sinceFlush [] xs)

/-- The last 16 bytes. -/
def last16 (s : List U8) : List U8 := s.drop (s.length - 16)

theorem tail_whole (s : List U8) (h : s.length % 16 = 0) : tail s = [] := List.drop_of_length_le (by omega)

theorem tail_length (s : List U8) : (tail s).length = s.length % 16 := by
  rw [tail, List.length_drop]
  omega

theorem tail_idem (s : List U8) : tail (tail s) = tail s := tail_short _ (by rw [tail_length]; omega)

theorem blocks_whole (s : List U8) (h : s.length % 16 = 0) : (blocks s).flatten = s := by
  induction n : s.length / 16 generalizing s with
  | zero =>
    obtain rfl : s = [] := List.length_eq_zero_iff.1 (by omega)
    rfl
  | succ n ih =>
    have := blocks_cons (s.take 16) (s.drop 16) (by rw [List.length_take]; omega)
    rw [List.take_append_drop] at this
    rw [this, List.flatten_cons, ih _ (by rw [List.length_drop]; omega) (by rw [List.length_drop]; omega), List.take_append_drop]

theorem last16_eq (iv s : List U8) (hi : iv.length = 16) (h : s.length % 16 = 0) : last16 (iv ++ s) = lastBlock iv s := by
  have hm := mem_blocks s
  have hw := blocks_whole s h
  rw [lastBlock, List.getLastD_eq_getLast?]
  rcases List.eq_nil_or_concat (blocks s) with e | ⟨bs, b, e⟩
  · rw [e] at hw ⊢
    rw [← hw]
    simp [last16, hi]
  · have hb : b.length = 16 := hm b (by rw [e]; simp)
    have hs : s = bs.flatten ++ b := by rw [← hw, e]; simp
    have : (iv ++ s).length - 16 = (iv ++ bs.flatten).length := by rw [hs]; simp; omega
    rw [e, last16, this, hs, ← List.append_assoc, List.drop_left]
    simp

/-- The answers to calls that keep the key, and what they leave. -/
theorem enc_left (key : List U8) (xs : List Spec.Cbc.Call) (h : SameKey xs) (iv s : List U8) (hi : iv.length = 16) :
    ∃ rs : List (List U8), ((⟨some key, iv, tail s⟩ : Enc).run xs) =
        (⟨some key, lastBlock iv rs.flatten, tail (sinceFlush s xs)⟩, rs.map .ok) ∧
      rs.flatten.length % 16 = 0 ∧ rs.length = xs.length := by
  induction xs generalizing iv s with
  | nil => exact ⟨[], by simp [Enc.run, lastBlock, blocks, sinceFlush], rfl, rfl⟩
  | cons x xs ih =>
    have step : ∀ (r : List U8) (t : List U8), (⟨some key, iv, tail s⟩ : Enc).step x = (⟨some key, lastBlock iv r, tail t⟩, .ok r) →
        r.length % 16 = 0 → sinceFlush t xs = sinceFlush s (x :: xs) →
        ∃ rs : List (List U8), ((⟨some key, iv, tail s⟩ : Enc).run (x :: xs)) =
            (⟨some key, lastBlock iv rs.flatten, tail (sinceFlush s (x :: xs))⟩, rs.map .ok) ∧
          rs.flatten.length % 16 = 0 ∧ rs.length = (x :: xs).length := by
      intro r t h1 h2 h5
      obtain ⟨rs, e1, e2, e3⟩ := ih (fun y hy => h y (by simp [hy])) (lastBlock iv r) t (lastBlock_length iv r hi)
      refine ⟨r :: rs, ?_, ?_, by simp [e3]⟩
      · rw [Enc.run, h1, e1, h5]
        simp only [Prod.map, id, List.flatten_cons, List.map_cons]
        rw [lastBlock_whole iv r _ h2]
      · rw [List.flatten_cons, List.length_append]
        omega
    cases x with
    | init k => exact absurd rfl (h _ (by simp) k)
    | write b =>
      refine step (encrypt key iv (tail s ++ b)) (s ++ b) ?_ ?_ rfl
      · rw [enc_write_some _ key rfl]
        dsimp only
        rw [tail_tail]
      · rw [encrypt_length]; omega
    | flush =>
      have hp : (pkcs7 16 (tail s)).length = 16 := by rw [pkcs7_length, tail_length]; omega
      have hl : (encrypt key iv (pkcs7 16 (tail s))).length = 16 := by rw [encrypt_length, hp]
      refine step (encrypt key iv (pkcs7 16 (tail s))) [] ?_ (by omega) rfl
      simp only [Enc.step]
      rw [lastBlock_one _ _ hl]
      rfl

/-- **C84.** A `Cipher` of the source with its key set answers any calls `pre` that keep the key, and then any calls `post`. Another
`Cipher`, made with the last 16 bytes that had been answered before `post` (of the initialization vector and the answers, when there were
fewer), given the key and the bytes that were not in an answer yet, answers `post` in the same way: after the loss of the first `Cipher`
nothing but the key, the ciphertext and the unsent bytes is needed to go on. -/
theorem C84_cipher (T : Target) (fuel depth : Nat) (hf : 65 ≤ fuel) (hd : 8 ≤ depth) (iv : Vector U8 16)
    (key : List U8) (hk : key.length = 16 ∨ key.length = 24 ∨ key.length = 32) (pre post : List Spec.Cbc.Call)
    (hpre : SameKey pre) (hx : ∀ x ∈ pre ++ post, Reasonable T x) :
    ∃ (before : List (List U8)) (after : List Val), before.length = pre.length ∧
      session T fuel depth (.aes_cbc_Cipher_new, [bytes iv.toList]) ((.init key :: (pre ++ post)).map cipherCall) =
        .ok (okVal .unit :: (before.map (fun o => okVal (bytes o)) ++ after)) ∧
      ∀ iv' : Vector U8 16, iv'.toList = last16 (iv.toList ++ before.flatten) →
        session T fuel depth (.aes_cbc_Cipher_new, [bytes iv'.toList])
            ((.init key :: .write (unsent pre) :: post).map cipherCall) =
          .ok (okVal .unit :: okVal (bytes []) :: after) := by
  have h16 : 16 + 16 ≤ T.isizeMax := by
    rcases T with ⟨w, c⟩
    cases w <;> simp [Target.isizeMax, Target.bits, Width.bits]
  have hk' : validKey key := hk
  obtain ⟨rs, e1, l1, n1⟩ := enc_left key pre hpre iv.toList [] (by simp)
  refine ⟨rs, cipherAnswers post ⟨some key, lastBlock iv.toList rs.flatten, unsent pre⟩, n1, ?_, fun iv' hiv => ?_⟩
  · rw [C68_source_cipher T fuel depth hf hd iv]
    · have run : ((⟨none, iv.toList, []⟩ : Enc).run (.init key :: (pre ++ post))).2 = .ok [] :: (rs.map .ok ++
          ((⟨some key, lastBlock iv.toList rs.flatten, unsent pre⟩ : Enc).run post).2) := by
        rw [Enc.run, Enc.step, if_pos hk', enc_run_append]
        rw [show tail ([] : List U8) = [] from rfl] at e1
        dsimp only
        rw [e1]
        rfl
      rw [cipherAnswers, run, List.zipWith_cons_cons, List.zipWith_append (by simp [n1]), answers_ok pre hpre rs n1]
      rfl
    · intro x hx'
      rcases List.mem_cons.1 hx' with rfl | h
      · exact fun b hb => Spec.Cbc.Call.noConfusion hb
      · exact hx x h
  · rw [C68_source_cipher T fuel depth hf hd iv', hiv, last16_eq _ _ (by simp) l1]
    · have ht : (unsent pre).length < 16 := by rw [unsent, tail_length]; omega
      have run : ((⟨none, lastBlock iv.toList rs.flatten, []⟩ : Enc).run (.init key :: .write (unsent pre) :: post)).2 =
          .ok [] :: .ok [] :: ((⟨some key, lastBlock iv.toList rs.flatten, unsent pre⟩ : Enc).run post).2 := by
        rw [Enc.run, Enc.step, if_pos hk', Enc.run, enc_write_some _ key rfl, List.nil_append, encrypt_short _ _ _ ht, tail_short _ ht]
        rfl
      rw [cipherAnswers, run]
      rfl
    · intro x hx'
      simp only [List.mem_cons] at hx'
      rcases hx' with rfl | rfl | h
      · exact fun b hb => Spec.Cbc.Call.noConfusion hb
      · intro b hb
        cases hb
        rw [unsent, tail_length]
        omega
      · exact hx x (by simp [h])

/-- The answers of a decryptor to several writes, and what they leave. -/
theorem dec_chunks (key : List U8) (chunks : List (List U8)) (iv s h : List U8) (hi : iv.length = 16) (hs : s.length < 16)
    (hh : h = [] ∨ h.length = 16) :
    ∃ rs : List (List U8), ((⟨some key, iv, s, h⟩ : Dec).run (chunks.map .write)) =
        (⟨some key, lastBlock iv (s ++ chunks.flatten), tail (s ++ chunks.flatten), last16 (h ++ decrypt key iv (s ++ chunks.flatten))⟩,
          rs.map .ok) ∧
      rs.flatten = (h ++ decrypt key iv (s ++ chunks.flatten)).take ((h ++ decrypt key iv (s ++ chunks.flatten)).length - 16) ∧
      rs.length = chunks.length := by
  induction chunks generalizing iv s h with
  | nil =>
    have : h.length - 16 = 0 := by
      rcases hh with h | h
      · rw [h]; rfl
      · omega
    refine ⟨[], ?_, ?_, rfl⟩
    · simp [Dec.run, lastBlock, blocks_short s hs, tail_short s hs, decrypt_short _ _ s hs, last16, this]
    · simp [decrypt_short _ _ s hs, this]
  | cons b bs ih =>
    have hl1 := decrypt_length key iv (s ++ b) hi
    have hp : (h ++ decrypt key iv (s ++ b)).length % 16 = 0 := by
      rw [List.length_append]
      rcases hh with e | e
      · rw [e, List.length_nil]; omega
      · omega
    have hliv := lastBlock_length iv (s ++ b) hi
    obtain ⟨rs, e1, e2, e3⟩ := ih (lastBlock iv (s ++ b)) (tail (s ++ b)) (last16 (h ++ decrypt key iv (s ++ b))) hliv
      (by rw [tail_length]; omega) (by
        rw [last16]
        generalize h ++ decrypt key iv (s ++ b) = l at hp
        by_cases h0 : l = []
        · left; rw [h0]; rfl
        · right
          have := List.length_pos_iff.2 h0
          rw [List.length_drop]
          omega)
    have hl2 := decrypt_length key (lastBlock iv (s ++ b)) (tail (s ++ b) ++ bs.flatten) hliv
    obtain ⟨c1, c2⟩ := cut_cut (h ++ decrypt key iv (s ++ b))
      (decrypt key (lastBlock iv (s ++ b)) (tail (s ++ b) ++ bs.flatten)) hp (by omega)
    refine ⟨(h ++ decrypt key iv (s ++ b)).take ((h ++ decrypt key iv (s ++ b)).length - 16) :: rs, ?_, ?_, by simp [e3]⟩
    · rw [List.map_cons, Dec.run, dec_write_some _ key rfl hh]
      dsimp only
      rw [last16] at e1
      rw [e1, List.flatten_cons, ← List.append_assoc, tail_tail, ← lastBlock_tail, decrypt_tail key iv (s ++ b), ← List.append_assoc h,
        last16, last16, c1]
      rfl
    · rw [List.flatten_cons, e2, List.flatten_cons, ← List.append_assoc s, decrypt_tail key iv (s ++ b), ← List.append_assoc h, ← c2]
      rfl

theorem dec_answers_ok (chunks rs : List (List U8)) (hl : rs.length = chunks.length) :
    List.zipWith decipherVal (chunks.map .write) (rs.map .ok) = rs.map fun o => okVal (bytes o) := by
  induction chunks generalizing rs with
  | nil => rw [List.length_eq_zero_iff.1 hl]; rfl
  | cons x xs ih =>
    obtain ⟨r, rs, rfl⟩ := List.exists_cons_of_length_eq_add_one hl
    rw [List.map_cons, List.map_cons, List.zipWith_cons_cons, List.map_cons, ih rs (by simpa using hl)]
    rfl

/-- **C84.** A `Decipher` of the source with its key set is given some whole blocks, then at least one more, both cut in any way, and then
any calls `post` are made. Another `Decipher`, made with the last of the first blocks as the initialization vector and given only the
blocks after them, answers what the first one answers, without as many bytes at the front as it was not given; and it answers `post` in
the same way. So decryption can begin at any block. -/
theorem C84_decipher (T : Target) (fuel depth : Nat) (hf : 65 ≤ fuel) (hd : 8 ≤ depth) (iv iv' : Vector U8 16)
    (key : List U8) (hk : key.length = 16 ∨ key.length = 24 ∨ key.length = 32) (first next : List (List U8))
    (post : List Spec.Cbc.Call) (hfirst : first.flatten.length % 16 = 0) (hnext : 16 ≤ next.flatten.length)
    (hiv : iv'.toList = last16 (iv.toList ++ first.flatten))
    (hx : ∀ x ∈ (first ++ next).map .write ++ post, Reasonable T x) :
    ∃ (whole part : List (List U8)) (after : List Val),
      session T fuel depth (.aes_cbc_Decipher_new, [bytes iv.toList])
          ((.init key :: ((first ++ next).map .write ++ post)).map decipherCall) =
        .ok (okVal .unit :: (whole.map (fun o => okVal (bytes o)) ++ after)) ∧ whole.length = (first ++ next).length ∧
      session T fuel depth (.aes_cbc_Decipher_new, [bytes iv'.toList])
          ((.init key :: (next.map .write ++ post)).map decipherCall) =
        .ok (okVal .unit :: (part.map (fun o => okVal (bytes o)) ++ after)) ∧ part.length = next.length ∧
      part.flatten = whole.flatten.drop first.flatten.length := by
  have hk' : validKey key := hk
  rw [last16_eq _ _ (by simp) hfirst] at hiv
  have hi : iv.toList.length = 16 := by simp
  have hi' : (lastBlock iv.toList first.flatten).length = 16 := lastBlock_length _ _ hi
  obtain ⟨rs, e1, e2, e3⟩ := dec_chunks key (first ++ next) iv.toList [] [] hi (by simp) (Or.inl rfl)
  obtain ⟨rs', e1', e2', e3'⟩ := dec_chunks key next (lastBlock iv.toList first.flatten) [] [] hi' (by simp) (Or.inl rfl)
  have hl1 := decrypt_length key iv.toList first.flatten hi
  have hl2 := decrypt_length key (lastBlock iv.toList first.flatten) next.flatten hi'
  have hd12 : decrypt key iv.toList (first ++ next).flatten =
      decrypt key iv.toList first.flatten ++ decrypt key (lastBlock iv.toList first.flatten) next.flatten := by
    rw [List.flatten_append, decrypt_tail, tail_whole _ hfirst, List.nil_append]
  rw [List.nil_append, List.nil_append] at e1 e2 e1' e2'
  rw [hd12] at e1 e2
  have hst : (⟨some key, lastBlock iv.toList (first ++ next).flatten, tail (first ++ next).flatten,
      last16 (decrypt key iv.toList first.flatten ++ decrypt key (lastBlock iv.toList first.flatten) next.flatten)⟩ : Dec) =
      ⟨some key, lastBlock (lastBlock iv.toList first.flatten) next.flatten, tail next.flatten,
        last16 (decrypt key (lastBlock iv.toList first.flatten) next.flatten)⟩ := by
    rw [List.flatten_append, lastBlock_whole _ _ _ hfirst, ← tail_tail, tail_whole _ hfirst, List.nil_append]
    congr 1
    rw [last16, last16, List.length_append, List.drop_append, List.drop_of_length_le (by omega), List.nil_append]
    congr 1
    omega
  rw [hst] at e1
  generalize (⟨some key, lastBlock (lastBlock iv.toList first.flatten) next.flatten, tail next.flatten,
        last16 (decrypt key (lastBlock iv.toList first.flatten) next.flatten)⟩ : Dec) = st at e1 e1'
  refine ⟨rs, rs', decipherAnswers post st, ?_, e3, ?_, e3', ?_⟩
  · rw [C68_source_decipher T fuel depth hf hd iv]
    · have run : ((⟨none, iv.toList, [], []⟩ : Dec).run (.init key :: ((first ++ next).map .write ++ post))).2 =
          .ok [] :: (rs.map .ok ++ (st.run post).2) := by
        rw [Dec.run, Dec.step, if_pos hk', dec_run_append]
        dsimp only
        rw [e1]
        rfl
      rw [decipherAnswers, run, List.zipWith_cons_cons, List.zipWith_append (by rw [List.length_map, List.length_map, e3]),
        dec_answers_ok _ rs e3]
      rfl
    · intro x hx'
      rcases List.mem_cons.1 hx' with rfl | h
      · exact fun b hb => Spec.Cbc.Call.noConfusion hb
      · exact hx x h
  · rw [C68_source_decipher T fuel depth hf hd iv', hiv]
    · have run : ((⟨none, lastBlock iv.toList first.flatten, [], []⟩ : Dec).run (.init key :: (next.map .write ++ post))).2 =
          .ok [] :: (rs'.map .ok ++ (st.run post).2) := by
        rw [Dec.run, Dec.step, if_pos hk', dec_run_append]
        dsimp only
        rw [e1']
        rfl
      rw [decipherAnswers, run, List.zipWith_cons_cons, List.zipWith_append (by rw [List.length_map, List.length_map, e3']),
        dec_answers_ok _ rs' e3']
      rfl
    · intro x hx'
      rcases List.mem_cons.1 hx' with rfl | h
      · exact fun b hb => Spec.Cbc.Call.noConfusion hb
      · refine hx x ?_
        rcases List.mem_append.1 h with h | h
        · simp only [List.map_append, List.mem_append]
          exact Or.inl (Or.inr h)
        · exact List.mem_append.2 (Or.inr h)
  · rw [e2, e2', List.length_append, List.drop_take, List.drop_append]
    have : (decrypt key iv.toList first.flatten).length = first.flatten.length := by omega
    rw [this, List.drop_of_length_le (by omega), List.nil_append, Nat.sub_self, List.drop_zero]
    congr 1
    omega

/-- **C84.** From a ciphertext made by the crate, a `Decipher` of the source that is given only what comes after the first `k` blocks, and
the block before it as the initialization vector, gives back what comes after the first `16 k` bytes of the message. -/
theorem C84_random_access (T : Target) (fuel depth : Nat) (hf : 65 ≤ fuel) (hd : 8 ≤ depth) (iv iv' : Vector U8 16)
    (key : List U8) (hk : key.length = 16 ∨ key.length = 24 ∨ key.length = 32) (m : List U8) (k : Nat) (hm : 16 * k ≤ m.length)
    (hiv : iv'.toList = ((iv.toList ++ encrypt key iv.toList (pkcs7 16 m)).drop (16 * k)).take 16) (chunks : List (List U8))
    (hc : chunks.flatten = (encrypt key iv.toList (pkcs7 16 m)).drop (16 * k)) (hx : ∀ b ∈ chunks, b.length + 16 ≤ T.isizeMax) :
    ∃ (rs : List (List U8)) (last : List U8),
      session T fuel depth (.aes_cbc_Decipher_new, [bytes iv'.toList]) ((messageCalls key chunks).map decipherCall) =
        .ok (okVal .unit :: (rs.map (fun o => okVal (bytes o)) ++ [okVal (bytes last)])) ∧
      rs.flatten ++ last = m.drop (16 * k) := by
  have hp : pkcs7 16 m = m.take (16 * k) ++ pkcs7 16 (m.drop (16 * k)) := by
    rw [pkcs7, pkcs7, ← List.append_assoc, List.take_append_drop, List.length_drop]
    have : (m.length - 16 * k) % 16 = m.length % 16 := by omega
    rw [this]
  have ht : (m.take (16 * k)).length = 16 * k := by rw [List.length_take]; omega
  have hl := encrypt_length key iv.toList (m.take (16 * k))
  have he : encrypt key iv.toList (pkcs7 16 m) = encrypt key iv.toList (m.take (16 * k)) ++
      encrypt key (lastBlock iv.toList (encrypt key iv.toList (m.take (16 * k)))) (pkcs7 16 (m.drop (16 * k))) := by
    rw [hp, encrypt_tail, tail_whole _ (by omega), List.nil_append]
  have hiv' : iv'.toList = lastBlock iv.toList (encrypt key iv.toList (m.take (16 * k))) := by
    rw [hiv, he, ← last16_eq _ _ (by simp) (by omega), last16, ← List.append_assoc, List.drop_append,
      List.take_append_of_le_length (by simp; omega)]
    rw [List.take_of_length_le (by simp; omega)]
    congr 1
    simp
    omega
  refine C69_source_round_trip T fuel depth hf hd iv' key hk _ chunks hx ?_
  rw [hc, he, hiv', List.drop_append, List.drop_of_length_le (by omega), List.nil_append,
    show 16 * k - (encrypt key iv.toList (m.take (16 * k))).length = 0 by omega, List.drop_zero]

theorem small (T : Target) : 100 ≤ T.isizeMax := by
  rcases T with ⟨w, c⟩
  cases w <;> simp [Target.isizeMax, Target.bits, Width.bits]

/-- A `Cipher` is lost after a message and the first 20 bytes of the next one: the four bytes that are not encrypted yet are given to a
new one. -/
example (T : Target) (iv : Vector U8 16) (key p q : List U8) (hk : key.length = 32) (hp : p.length = 20) (hq : q.length = 30) :
    ∃ a b c : List U8, ∃ d e : Val,
      session T 65 8 (.aes_cbc_Cipher_new, [bytes iv.toList])
        [(.aes_cbc_Cipher_init, [bytes key]), (.aes_cbc_Cipher_write, [bytes [1, 2, 3]]), (.aes_cbc_Cipher_flush, []),
          (.aes_cbc_Cipher_write, [bytes p]), (.aes_cbc_Cipher_write, [bytes q]), (.aes_cbc_Cipher_flush, [])] =
        .ok [okVal .unit, okVal (bytes a), okVal (bytes b), okVal (bytes c), d, e] ∧
      ∀ iv' : Vector U8 16, iv'.toList = last16 (iv.toList ++ (a ++ (b ++ c))) →
        session T 65 8 (.aes_cbc_Cipher_new, [bytes iv'.toList])
          [(.aes_cbc_Cipher_init, [bytes key]), (.aes_cbc_Cipher_write, [bytes (p.drop 16)]), (.aes_cbc_Cipher_write, [bytes q]),
            (.aes_cbc_Cipher_flush, [])] =
          .ok [okVal .unit, okVal (bytes []), d, e] := by
  have h := small T
  obtain ⟨rs, vs, l, h1, h2⟩ := C84_cipher T 65 8 (by omega) (by omega) iv key (by omega) [.write [1, 2, 3], .flush, .write p]
    [.write q, .flush] (by simp [SameKey]) (by
      intro x hx b hb
      subst hb
      have : b = [1, 2, 3] ∨ b = p ∨ b = q := by simpa using hx
      rcases this with rfl | rfl | rfl
      · simp only [List.length_cons, List.length_nil]; omega
      · omega
      · omega)
  obtain ⟨a, b, c, rfl⟩ : ∃ a b c, rs = [a, b, c] := by
    rcases rs with _ | ⟨a, _ | ⟨b, _ | ⟨c, _ | _⟩⟩⟩ <;> simp_all
  have hv : vs.length = 2 := by
    rw [C68_source_cipher T 65 8 (by omega) (by omega) iv] at h1
    · injection h1 with h1
      have := congrArg List.length h1
      have hlen : ∀ (xs : List Spec.Cbc.Call) (e : Enc), (cipherAnswers xs e).length = xs.length := by
        intro xs
        induction xs with
        | nil => intro e; rfl
        | cons x xs ih =>
          intro e
          have := ih (e.step x).1
          simp only [cipherAnswers] at this ⊢
          simp only [Enc.run, Prod.map, List.zipWith_cons_cons, List.length_cons, this]
      rw [hlen] at this
      simpa using this.symm
    · intro x hx b hb
      subst hb
      have : b = [1, 2, 3] ∨ b = p ∨ b = q := by simpa using hx
      rcases this with rfl | rfl | rfl
      · simp only [List.length_cons, List.length_nil]; omega
      · omega
      · omega
  obtain ⟨d, e, rfl⟩ : ∃ d e, vs = [d, e] := by
    rcases vs with _ | ⟨d, _ | ⟨e, _ | _⟩⟩ <;> simp_all
  refine ⟨a, b, c, d, e, ?_, fun iv' hiv => ?_⟩
  · simpa only [List.map_cons, List.map_nil, List.cons_append, List.nil_append, cipherCall] using h1
  · have hu : unsent [.write [1, 2, 3], .flush, .write p] = p.drop 16 := by
      simp [unsent, sinceFlush, tail, hp]
    have := h2 iv' (by simpa using hiv)
    rw [hu] at this
    simpa only [List.map_cons, List.map_nil, cipherCall] using this

/-- Three blocks, of which the last two are given to a second `Decipher`. -/
example (T : Target) (iv iv' : Vector U8 16) (key x y z : List U8) (hk : key.length = 16) (hx : x.length = 16) (hy : y.length = 16)
    (hz : z.length = 16) (hiv : iv'.toList = x) :
    ∃ (whole part : List (List U8)) (after : List Val),
      session T 65 8 (.aes_cbc_Decipher_new, [bytes iv.toList])
          ((.init key :: ([x, y, z].map .write ++ [.flush])).map decipherCall) =
        .ok (okVal .unit :: (whole.map (fun o => okVal (bytes o)) ++ after)) ∧
      session T 65 8 (.aes_cbc_Decipher_new, [bytes iv'.toList])
          ((.init key :: ([y, z].map .write ++ [.flush])).map decipherCall) =
        .ok (okVal .unit :: (part.map (fun o => okVal (bytes o)) ++ after)) ∧
      part.flatten = whole.flatten.drop 16 := by
  have h := small T
  obtain ⟨w, p, a, h1, _, h2, _, h3⟩ := C84_decipher T 65 8 (by omega) (by omega) iv iv' key (by omega) [x] [y, z] [.flush]
    (by simp [hx]) (by simp [hy]) (by simp [last16, hx, hiv]) (by
      intro c hc b hb
      subst hb
      have : b = x ∨ b = y ∨ b = z := by simpa using hc
      rcases this with rfl | rfl | rfl <;> omega)
  exact ⟨w, p, a, h1, h2, by simpa [hx] using h3⟩

/-- The third block of a message of 40 bytes, read from the last ciphertext block and the one before it. -/
example (T : Target) (iv iv' : Vector U8 16) (key m : List U8) (hk : key.length = 16) (hm : m.length = 40)
    (hiv : iv'.toList = ((encrypt key iv.toList (pkcs7 16 m)).drop 16).take 16) :
    ∃ (rs : List (List U8)) (last : List U8),
      session T 65 8 (.aes_cbc_Decipher_new, [bytes iv'.toList])
          ((messageCalls key [(encrypt key iv.toList (pkcs7 16 m)).drop 32]).map decipherCall) =
        .ok (okVal .unit :: (rs.map (fun o => okVal (bytes o)) ++ [okVal (bytes last)])) ∧
      rs.flatten ++ last = m.drop 32 := by
  have h := small T
  have hl := encrypt_length key iv.toList (pkcs7 16 m)
  have hp := pkcs7_length m
  refine C84_random_access T 65 8 (by omega) (by omega) iv iv' key (by omega) m 2 (by omega) ?_ _ (by simp) ?_
  · rw [hiv, List.drop_append, List.drop_of_length_le (l := iv.toList) (by simp), List.nil_append]
    simp
  · intro b hb
    obtain rfl : b = (encrypt key iv.toList (pkcs7 16 m)).drop 32 := by simpa using hb
    rw [List.length_drop]
    omega

end Verif.Props.Resume
