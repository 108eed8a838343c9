import Verif.Props.SourceCbc
import Verif.Props.CbcSplit
import Verif.Props.CbcMisuse

/-!
C80: the initialization vector of what is written next to a `Cipher` is the last block of what it has answered. Whoever sees the
answers and can have data of their choice encrypted can therefore test a guess of an earlier block.
-/

set_option linter.constructorNameAsVariable false

namespace Verif.Props.Guess
open Verif Verif.AesCbc Verif.Source Verif.Props.Source Verif.Props.CbcSplit Spec.Cbc

/-- The number of bytes held back by a `Cipher` after some calls, when `k` were before. -/
def heldBack : Nat → List Spec.Cbc.Call → Nat
  | k, [] => k
  | k, .write b :: xs => heldBack ((k + b.length) % 16) xs
  | _, .flush :: xs => heldBack 0 xs
  | k, .init _ :: xs => heldBack k xs

/-- The key stays the same. -/
def SameKey (xs : List Spec.Cbc.Call) : Prop := ∀ x ∈ xs, ∀ key, x ≠ .init key

/-- The data to write next, to test whether an earlier block was `guess`: the guess xor the last ciphertext block before that block was
encrypted, xor the last ciphertext block now. `before` and `seen` are what had been answered then and now; `iv` is the initialization
vector. -/
def question (iv before seen guess : List U8) : List U8 :=
  Spec.xorBytes guess (Spec.xorBytes (lastBlock iv before) (lastBlock iv seen))

theorem lastBlock_length (iv s : List U8) (h : iv.length = 16) : (lastBlock iv s).length = 16 := by
  rw [lastBlock, List.getLastD_eq_getLast?]
  cases e : (blocks s).getLast? with
  | none => exact h
  | some x => exact mem_blocks s x (List.mem_of_getLast? e)

theorem lastBlock_whole (iv s t : List U8) (h : s.length % 16 = 0) : lastBlock iv (s ++ t) = lastBlock (lastBlock iv s) t := by
  rw [lastBlock_tail, tail, List.drop_of_length_le (by omega), List.nil_append]

theorem lastBlock_one (iv b : List U8) (h : b.length = 16) : lastBlock iv b = b := by
  have := blocks_cons b [] h
  rw [List.append_nil, blocks_short [] (by simp)] at this
  rw [lastBlock, this]
  rfl

theorem enc_one (key iv p : List U8) (hp : p.length = 16) : encrypt key iv p = Spec.Aes.encrypt key (Spec.xorBytes p iv) := by
  have := blocks_cons p [] hp
  rw [List.append_nil, blocks_short [] (by simp)] at this
  rw [encrypt, this]
  simp [encBlocks]

/-- The answers to calls that keep the key, and what they leave. -/
theorem enc_run (key : List U8) (xs : List Spec.Cbc.Call) (h : SameKey xs) (iv s : List U8) (hi : iv.length = 16) (hs : s.length < 16) :
    ∃ (rs : List (List U8)) (s' : List U8), ((⟨some key, iv, s⟩ : Enc).run xs) = (⟨some key, lastBlock iv rs.flatten, s'⟩, rs.map .ok) ∧
      rs.flatten.length % 16 = 0 ∧ rs.length = xs.length ∧ s'.length = heldBack s.length xs := by
  induction xs generalizing iv s with
  | nil => exact ⟨[], s, by simp [Enc.run, lastBlock, blocks], rfl, rfl, rfl⟩
  | cons x xs ih =>
    have step : ∀ (r : List U8) (t : List U8), (⟨some key, iv, s⟩ : Enc).step x = (⟨some key, lastBlock iv r, t⟩, .ok r) →
        r.length % 16 = 0 → t.length < 16 →
        heldBack t.length xs = heldBack s.length (x :: xs) →
        ∃ (rs : List (List U8)) (s' : List U8), ((⟨some key, iv, s⟩ : Enc).run (x :: xs)) = (⟨some key, lastBlock iv rs.flatten, s'⟩, rs.map .ok) ∧
          rs.flatten.length % 16 = 0 ∧ rs.length = (x :: xs).length ∧ s'.length = heldBack s.length (x :: xs) := by
      intro r t h1 h2 h3 h5
      obtain ⟨rs, s', e1, e2, e3, e4⟩ := ih (fun y hy => h y (by simp [hy])) (lastBlock iv r) t (lastBlock_length iv r hi) h3
      refine ⟨r :: rs, s', ?_, ?_, by simp [e3], by rw [e4, h5]⟩
      · rw [Enc.run, h1, e1]
        simp only [Prod.map, id, List.flatten_cons, List.map_cons]
        rw [lastBlock_whole iv r _ h2]
      · rw [List.flatten_cons, List.length_append]
        omega
    cases x with
    | init k => exact absurd rfl (h _ (by simp) k)
    | write b =>
      by_cases hl : (s ++ b).length < 16
      · have hl' : s.length + b.length < 16 := by simpa using hl
        refine step [] (s ++ b) ?_ rfl hl ?_
        · simp [Enc.step, hl', lastBlock, blocks]
        · simp [heldBack, Nat.mod_eq_of_lt hl']
      · have ht : (tail (s ++ b)).length = (s.length + b.length) % 16 := by
          rw [tail, List.length_drop, List.length_append]
          omega
        refine step (encrypt key iv (s ++ b)) (tail (s ++ b)) ?_ ?_ (by omega) ?_
        · simp only [Enc.step, if_neg hl]
        · rw [encrypt_length]; omega
        · rw [ht]; rfl
    | flush =>
      have hp : (pkcs7 16 s).length = 16 := by rw [pkcs7_length]; omega
      have hl : (encrypt key iv (pkcs7 16 s)).length = 16 := by rw [encrypt_length, hp]
      refine step (encrypt key iv (pkcs7 16 s)) [] ?_ (by omega) (by simp) rfl
      simp only [Enc.step]
      rw [lastBlock_one _ _ hl]

theorem answers_ok (xs : List Spec.Cbc.Call) (h : SameKey xs) (rs : List (List U8)) (hl : rs.length = xs.length) :
    List.zipWith cipherVal xs (rs.map .ok) = rs.map fun o => okVal (bytes o) := by
  induction xs generalizing rs with
  | nil => rw [List.length_eq_zero_iff.1 hl]; rfl
  | cons x xs ih =>
    obtain ⟨r, rs, rfl⟩ := List.exists_cons_of_length_eq_add_one hl
    rw [List.map_cons, List.zipWith_cons_cons, List.map_cons, ih (fun y hy => h y (by simp [hy])) rs (by simpa using hl)]
    cases x with
    | init k => exact absurd rfl (h _ (by simp) k)
    | write b => rfl
    | flush => rfl

theorem enc_write_block (key iv p : List U8) (hp : p.length = 16) :
    (⟨some key, iv, []⟩ : Enc).step (.write p) =
      (⟨some key, Spec.Aes.encrypt key (Spec.xorBytes p iv), []⟩, .ok (Spec.Aes.encrypt key (Spec.xorBytes p iv))) := by
  simp only [Enc.step, List.nil_append, hp, Nat.lt_irrefl, if_false, enc_one key iv p hp]
  rw [lastBlock_one _ _ (aes_encrypt_length _ _), tail, hp, List.drop_of_length_le (by omega)]

theorem xor_question (g a b : List U8) (hg : g.length = 16) (ha : a.length = 16) (hb : b.length = 16) :
    Spec.xorBytes (Spec.xorBytes g (Spec.xorBytes a b)) b = Spec.xorBytes g a := by
  apply List.ext_getElem
  · simp [Spec.xorBytes, hg, ha, hb]
  · intro i _ _
    simp only [Spec.xorBytes, List.getElem_zipWith]
    rw [BitVec.xor_assoc, BitVec.xor_assoc, BitVec.xor_self, BitVec.xor_zero]

theorem xor_right_inj (a b c : List U8) (ha : a.length = 16) (hb : b.length = 16) (hc : c.length = 16)
    (h : Spec.xorBytes a c = Spec.xorBytes b c) : a = b := by
  apply List.ext_getElem (by omega)
  intro i h1 h2
  have := congrArg (fun l => l[i]?) h
  simp only [Spec.xorBytes, List.getElem?_zipWith] at this
  rw [List.getElem?_eq_getElem h1, List.getElem?_eq_getElem h2, List.getElem?_eq_getElem (by omega : i < c.length)] at this
  have := congrArg (· ^^^ c[i]'(by omega)) (Option.some.inj this)
  simpa only [BitVec.xor_assoc, BitVec.xor_self, BitVec.xor_zero] using this

/-- **C80.** After any calls, with no bytes held back, a block `p` is written to a `Cipher` of the source, and then any other calls are
made, until again no bytes are held back. Whoever has seen the answers, and then has the `question` about `guess` encrypted by the same
`Cipher`, sees the same answer as to `p` if and only if `guess` is `p`. The guess can be made after everything else is seen. -/
theorem C80_guess (T : Target) (fuel depth : Nat) (hf : 65 ≤ fuel) (hd : 8 ≤ depth) (iv : Vector U8 16)
    (key : List U8) (hk : key.length = 16 ∨ key.length = 24 ∨ key.length = 32) (pre mid : List Spec.Cbc.Call) (p : List U8)
    (hp : p.length = 16) (hpre : SameKey pre) (hmid : SameKey mid) (h0 : heldBack 0 pre = 0) (h1 : heldBack 0 mid = 0)
    (hx : ∀ x ∈ pre ++ mid, Reasonable T x) :
    ∃ (before : List (List U8)) (c : List U8) (after : List (List U8)),
      before.length = pre.length ∧ after.length = mid.length ∧
      ∀ guess : List U8, guess.length = 16 → ∃ answer : List U8,
        session T fuel depth (.aes_cbc_Cipher_new, [bytes iv.toList])
          ((.init key :: (pre ++ .write p :: (mid ++
            [.write (question iv.toList before.flatten (before ++ c :: after).flatten guess)]))).map cipherCall) =
          .ok (okVal .unit :: (before ++ c :: (after ++ [answer])).map fun o => okVal (bytes o)) ∧
        (answer = c ↔ guess = p) := by
  have h16 : 16 + 16 ≤ T.isizeMax := by
    rcases T with ⟨w, c⟩
    cases w <;> simp [Target.isizeMax, Target.bits, Width.bits]
  have hiv : iv.toList.length = 16 := by simp
  obtain ⟨rs1, s1, e1, l1, n1, b1⟩ := enc_run key pre hpre iv.toList [] hiv (by simp)
  obtain rfl : s1 = [] := List.length_eq_zero_iff.1 (by rw [b1]; exact h0)
  have hB := lastBlock_length iv.toList rs1.flatten hiv
  have e2 := enc_write_block key (lastBlock iv.toList rs1.flatten) p hp
  have hc := aes_encrypt_length key (Spec.xorBytes p (lastBlock iv.toList rs1.flatten))
  generalize hcd : Spec.Aes.encrypt key (Spec.xorBytes p (lastBlock iv.toList rs1.flatten)) = c at e2 hc
  obtain ⟨rs2, s2, e3, l2, n2, b2⟩ := enc_run key mid hmid c [] hc (by simp)
  obtain rfl : s2 = [] := List.length_eq_zero_iff.1 (by rw [b2]; exact h1)
  refine ⟨rs1, c, rs2, n1, n2, fun guess hg => ?_⟩
  have hL := lastBlock_length c rs2.flatten hc
  have hlast : lastBlock iv.toList (rs1 ++ c :: rs2).flatten = lastBlock c rs2.flatten := by
    rw [List.flatten_append, List.flatten_cons, lastBlock_whole _ _ _ l1, lastBlock_whole _ _ _ (by omega), lastBlock_one _ _ hc]
  have hq : (question iv.toList rs1.flatten (rs1 ++ c :: rs2).flatten guess).length = 16 := by
    rw [question, hlast]
    simp [Spec.xorBytes, hg, hB, hL]
  have e4 := enc_write_block key (lastBlock c rs2.flatten) _ hq
  have ha : Spec.xorBytes (question iv.toList rs1.flatten (rs1 ++ c :: rs2).flatten guess) (lastBlock c rs2.flatten) =
      Spec.xorBytes guess (lastBlock iv.toList rs1.flatten) := by
    rw [question, hlast, xor_question _ _ _ hg hB hL]
  rw [ha] at e4
  generalize question iv.toList rs1.flatten (rs1 ++ c :: rs2).flatten guess = q at hq e4
  refine ⟨Spec.Aes.encrypt key (Spec.xorBytes guess (lastBlock iv.toList rs1.flatten)), ?_, ?_, ?_⟩
  · rw [C68_source_cipher T fuel depth hf hd iv]
    · have hk' : validKey key := hk
      congr 1
      have run : ((⟨none, iv.toList, []⟩ : Enc).run (.init key :: (pre ++ .write p :: (mid ++ [.write q])))).2 =
          (.ok [] :: (rs1 ++ c :: (rs2 ++ [Spec.Aes.encrypt key (Spec.xorBytes guess (lastBlock iv.toList rs1.flatten))])).map .ok) := by
        rw [Enc.run, Enc.step, if_pos hk', enc_run_append, e1]
        simp only [Enc.run, e2]
        rw [enc_run_append, e3]
        simp only [Enc.run, e4]
        simp [Prod.map]
      rw [cipherAnswers, run]
      simp only [List.zipWith_cons_cons]
      rw [answers_ok]
      · rfl
      · intro x hx'
        simp only [List.mem_append, List.mem_cons, List.not_mem_nil, or_false] at hx'
        rcases hx' with h | rfl | h | rfl
        · exact hpre x h
        · exact fun _ => Spec.Cbc.Call.noConfusion
        · exact hmid x h
        · exact fun _ => Spec.Cbc.Call.noConfusion
      · simp [n1, n2]
    · intro x hx'
      simp only [List.mem_append, List.mem_cons, List.not_mem_nil, or_false] at hx'
      rcases hx' with rfl | h | rfl | h | rfl
      · exact fun b hb => Spec.Cbc.Call.noConfusion hb
      · exact hx x (by simp [h])
      · intro b hb
        cases hb
        omega
      · exact hx x (by simp [h])
      · intro b hb
        cases hb
        omega
  · intro h
    rw [← hcd] at h
    have := congrArg (Spec.Aes.decrypt key) h
    rw [aes_dec_enc _ _ (by simp [Spec.xorBytes, hg, hB]), aes_dec_enc _ _ (by simp [Spec.xorBytes, hp, hB])] at this
    exact xor_right_inj _ _ _ hg hp hB this
  · rintro rfl
    exact hcd

/-- A secret block written after a message of 3 bytes, then another message: a guess of the secret is right or wrong. -/
example (T : Target) (iv : Vector U8 16) (key secret : List U8) (hk : key.length = 24) (hs : secret.length = 16) :
    ∃ (a b c d e f : List U8), ∀ guess : List U8, guess.length = 16 → ∃ answer : List U8,
      session T 65 8 (.aes_cbc_Cipher_new, [bytes iv.toList])
        [(.aes_cbc_Cipher_init, [bytes key]), (.aes_cbc_Cipher_write, [bytes [1, 2, 3]]), (.aes_cbc_Cipher_flush, []),
          (.aes_cbc_Cipher_write, [bytes secret]), (.aes_cbc_Cipher_flush, []), (.aes_cbc_Cipher_write, [bytes [4]]),
          (.aes_cbc_Cipher_flush, []),
          (.aes_cbc_Cipher_write, [bytes (question iv.toList (a ++ b) (a ++ (b ++ (c ++ (d ++ (e ++ f))))) guess)])] =
        .ok [okVal .unit, okVal (bytes a), okVal (bytes b), okVal (bytes c), okVal (bytes d), okVal (bytes e), okVal (bytes f),
          okVal (bytes answer)] ∧ (answer = c ↔ guess = secret) := by
  have h33 : 33 ≤ T.isizeMax := by
    rcases T with ⟨w, c⟩
    cases w <;> simp [Target.isizeMax, Target.bits, Width.bits]
  have hx : ∀ x ∈ [Spec.Cbc.Call.write [1, 2, 3], .flush] ++ [.flush, .write [4], .flush], Reasonable T x := by
    intro x hx b hb
    subst hb
    have : b = [1, 2, 3] ∨ b = [4] := by simpa using hx
    rcases this with rfl | rfl <;> simp only [List.length_cons, List.length_nil] <;> omega
  obtain ⟨rs, c, rs', l1, l2, h⟩ := C80_guess T 65 8 (by omega) (by omega) iv key (by omega) [.write [1, 2, 3], .flush]
    [.flush, .write [4], .flush] secret hs (by simp [SameKey]) (by simp [SameKey]) rfl rfl hx
  obtain ⟨a, b, rfl⟩ : ∃ a b, rs = [a, b] := by
    rcases rs with _ | ⟨a, _ | ⟨b, _ | _⟩⟩ <;> simp_all
  obtain ⟨d, e, f, rfl⟩ : ∃ d e f, rs' = [d, e, f] := by
    rcases rs' with _ | ⟨a, _ | ⟨b, _ | ⟨c, _ | _⟩⟩⟩ <;> simp_all
  refine ⟨a, b, c, d, e, f, fun guess hg => ?_⟩
  obtain ⟨answer, h1, h2⟩ := h guess hg
  refine ⟨answer, ?_, h2⟩
  simp only [List.flatten_cons, List.flatten_nil, List.append_nil, List.cons_append, List.nil_append, List.map_cons, List.map_nil,
    cipherCall] at h1
  exact h1

end Verif.Props.Guess
