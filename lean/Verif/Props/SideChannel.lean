import Verif.Source.TraceCbc
import Verif.Props.ConstantTime
import Verif.Props.SourceCbc

/-!
C74: what an observer of the execution learns from AES: the key, and every block that is encrypted or decrypted.

The observer is the one of `Verif/Source/Leak.lean`. C72 says of the hashes that executions on different data look the same. Here
it is the other way round: executions of AES on different data look different, because the S-box is a table indexed by the data.
-/

set_option linter.constructorNameAsVariable false

namespace Verif.Props.SideChannel
open Verif Verif.Aes Verif.Source Verif.Props.ConstantTime

/-! ### Traces side by side -/

theorem append_same {α : Type} {a a' b b' : List α} (hl : a.length = a'.length) (h : a ++ b = a' ++ b') : a = a' ∧ b = b' :=
  List.append_inj h hl

theorem flatMap_inj {α β : Type} {xs : List α} {f g : α → List β} (hl : ∀ x ∈ xs, (f x).length = (g x).length) {r r' : List β}
    (h : xs.flatMap f ++ r = xs.flatMap g ++ r') : (∀ x ∈ xs, f x = g x) ∧ r = r' := by
  induction xs with
  | nil => exact ⟨by simp, h⟩
  | cons x xs ih =>
    rw [List.flatMap_cons, List.flatMap_cons, List.append_assoc, List.append_assoc] at h
    obtain ⟨h1, h2⟩ := append_same (hl x (by simp)) h
    obtain ⟨h3, h4⟩ := ih (fun y hy => hl y (by simp [hy])) h2
    exact ⟨by simpa [h1] using h3, h4⟩

theorem flatMap_inj' {α β : Type} {xs ys : List α} {f : α → List β} {n : Nat} (hl : ∀ x, (f x).length = n)
    (hf : ∀ x y, f x = f y → x = y) (hxy : xs.length = ys.length) {r r' : List β}
    (h : xs.flatMap f ++ r = ys.flatMap f ++ r') : xs = ys := by
  induction xs generalizing ys with
  | nil => exact (List.length_eq_zero_iff.1 hxy.symm).symm
  | cons x xs ih =>
    rcases ys with _ | ⟨y, ys⟩
    · cases hxy
    · rw [List.flatMap_cons, List.flatMap_cons, List.append_assoc, List.append_assoc] at h
      obtain ⟨h1, h2⟩ := append_same (by rw [hl, hl]) h
      rw [hf x y h1, ih (by simpa using hxy) h2]

theorem toNat_inj8 {a b : U8} (h : a.toNat = b.toNat) : a = b := BitVec.eq_of_toNat_eq h

theorem cellTrace_inj (a b : U8) (h : cellTrace a = cellTrace b) : a = b := by
  simp only [cellTrace, List.cons.injEq, Event.index.injEq] at h
  exact toNat_inj8 h.2.1

theorem decCellTrace_inj (a b : U8) (h : decCellTrace a = decCellTrace b) : a = b := by
  simp only [decCellTrace, List.cons.injEq, Event.index.injEq] at h
  exact toNat_inj8 h.2.1

theorem flatMap_length {α β : Type} {f : α → List β} {n : Nat} (hl : ∀ x, (f x).length = n) (xs : List α) :
    (xs.flatMap f).length = xs.length * n := by
  induction xs with
  | nil => simp
  | cons x xs ih => rw [List.flatMap_cons, List.length_append, ih, hl, List.length_cons, Nat.succ_mul, Nat.add_comm]

theorem colTrace_length (c : Vector U8 4) : (colTrace c).length = 9 := by
  rw [colTrace, List.length_cons, flatMap_length (n := 2) (fun _ => rfl)]
  simp

theorem decColTrace_length (c : Vector U8 4) : (decColTrace c).length = 9 := by
  rw [decColTrace, List.length_cons, flatMap_length (n := 2) (fun _ => rfl)]
  simp

theorem colTrace_inj (a b : Vector U8 4) (h : colTrace a = colTrace b) : a = b := by
  have h2 : a.toList.flatMap cellTrace ++ [] = b.toList.flatMap cellTrace ++ [] := by
    simpa [colTrace] using h
  exact Vector.toList_inj.1 (flatMap_inj' (n := 2) (fun _ => rfl) cellTrace_inj (by simp) h2)

theorem decColTrace_inj (a b : Vector U8 4) (h : decColTrace a = decColTrace b) : a = b := by
  have h2 : a.toList.flatMap decCellTrace ++ [] = b.toList.flatMap decCellTrace ++ [] := by
    simpa [decColTrace] using h
  exact Vector.toList_inj.1 (flatMap_inj' (n := 2) (fun _ => rfl) decCellTrace_inj (by simp) h2)

theorem block_inj {a b : Block} {r r' : Trace} (h : a.toList.flatMap colTrace ++ r = b.toList.flatMap colTrace ++ r') : a = b :=
  Vector.toList_inj.1 (flatMap_inj' colTrace_length colTrace_inj (by simp) h)

theorem decBlock_inj {a b : Block} {r r' : Trace} (h : a.toList.flatMap decColTrace ++ r = b.toList.flatMap decColTrace ++ r') :
    a = b :=
  Vector.toList_inj.1 (flatMap_inj' decColTrace_length decColTrace_inj (by simp) h)

theorem subTrace_inj {a b : U32} (h : subTrace a = subTrace b) : a = b := by
  simp only [subTrace, List.cons.injEq, Event.index.injEq] at h
  obtain ⟨-, -, -, h0, -, h1, -, h2, -, h3, -⟩ := h
  have a0 := BitVec.eq_of_toNat_eq h0
  have a1 := BitVec.eq_of_toNat_eq h1
  have a2 := BitVec.eq_of_toNat_eq h2
  have a3 := BitVec.eq_of_toNat_eq h3
  clear h0 h1 h2 h3
  apply BitVec.eq_of_getLsbD_eq
  intro i hi
  have m (x : U32) (i : Nat) (h : i < 8) : (x &&& 255#32).getLsbD i = x.getLsbD i := by
    rw [BitVec.getLsbD_and]
    have : (255#32).getLsbD i = true := by
      match i, h with
      | 0, _ | 1, _ | 2, _ | 3, _ | 4, _ | 5, _ | 6, _ | 7, _ => rfl
    rw [this, Bool.and_true]
  by_cases c3 : i < 8
  · have := congrArg (·.getLsbD i) a3
    simpa only [m _ _ c3] using this
  by_cases c2 : i < 16
  · have := congrArg (·.getLsbD (i - 8)) a2
    simpa only [m _ _ (show i - 8 < 8 by omega), BitVec.getLsbD_ushiftRight, show 8 + (i - 8) = i by omega] using this
  by_cases c1 : i < 24
  · have := congrArg (·.getLsbD (i - 16)) a1
    simpa only [m _ _ (show i - 16 < 8 by omega), BitVec.getLsbD_ushiftRight, show 16 + (i - 16) = i by omega] using this
  · have := congrArg (·.getLsbD (i - 24)) a0
    simpa only [BitVec.getLsbD_ushiftRight, show 24 + (i - 24) = i by omega] using this

theorem rot_word_inj {a b : U32} (h : rot_word a = rot_word b) : a = b := by
  have h' : wordByte (rot_word a) = wordByte (rot_word b) := by rw [h]
  rw [rot_word_ok, rot_word_ok] at h'
  apply wordByte_inj
  funext r
  have e : ∀ r : Fin 4, r - 1 + 1 = r := by decide
  have := congrFun h' (r - 1)
  rw [Spec.Aes.rotWord, Spec.Aes.rotWord, e] at this
  exact this

theorem subTrace_length (t : U32) : (subTrace t).length = 10 := rfl

theorem expandTrace_length (nk i : Nat) (t t' : U32) : (expandTrace nk i t).length = (expandTrace nk i t').length := by
  unfold expandTrace
  split
  · rfl
  · split
    · split <;> rfl
    · rfl

theorem expandTrace_inj {nk i : Nat} (hs : Special nk i) {t t' : U32} (h : expandTrace nk i t = expandTrace nk i t') : t = t' := by
  unfold expandTrace at h
  by_cases h0 : i % nk = 0
  · rw [if_pos h0, if_pos h0, List.append_assoc, List.append_assoc] at h
    have h' := List.append_cancel_left h
    exact rot_word_inj (subTrace_inj (append_same (by rw [subTrace_length, subTrace_length]) h').1)
  · have h4 := hs.resolve_left h0
    rw [if_neg h0, if_neg h0, if_pos h4.1, if_pos h4.1, if_pos h4.2, if_pos h4.2] at h
    simp only [List.cons_append, List.nil_append, List.cons.injEq, true_and] at h
    exact subTrace_inj (append_same (by rw [subTrace_length, subTrace_length]) h).1

/-! ### The functions of AES -/

/-- The lengths of AES keys. -/
def ValidKey (key : List U8) : Prop := key.length = 16 ∨ key.length = 24 ∨ key.length = 32

/-- What is seen of `AES::init` with a valid key determines the key: after whatever follows. -/
theorem init_reveals (T : Target) (F d : Nat) (a a' : AES) (k k' : List U8) (hk : ValidKey k) (hk' : ValidKey k') (r r' : Trace)
    (h : (callT T crate (F + 65) (d + 3) .aes_AES_init [encAES a, bytes k]).1 ++ r =
      (callT T crate (F + 65) (d + 3) .aes_AES_init [encAES a', bytes k']).1 ++ r') : k = k' ∧ r = r' := by
  rw [trace_init T F d a k (k.length / 4 + 6) (by rcases hk with h | h | h <;> simp [h]),
    trace_init T F d a' k' (k'.length / 4 + 6) (by rcases hk' with h | h | h <;> simp [h])] at h
  have hl : k.length = k'.length := by
    rcases hk with h1 | h1 | h1 <;> rcases hk' with h2 | h2 | h2 <;> rw [h1, h2] at h ⊢ <;>
      simp [initTrace] at h
  rw [hl, List.append_assoc, List.append_assoc] at h
  have h := List.append_cancel_left h
  simp only [List.cons_append, List.cons.injEq, true_and] at h
  generalize hnk : k'.length / 4 = nk at *
  have hm : nk = 4 ∨ nk = 6 ∨ nk = 8 := by rcases hk' with h | h | h <;> omega
  have hk4 : k.length = 4 * nk := by rcases hk' with h | h | h <;> omega
  have hk4' : k'.length = 4 * nk := by omega
  obtain ⟨ws, -, hs⟩ := expand_key_ok T k nk (nk + 6) hk4 (by omega) (by omega) (by omega)
  obtain ⟨ws', -, hs'⟩ := expand_key_ok T k' nk (nk + 6) hk4' (by omega) (by omega) (by omega)
  rw [trace_expand T F d k (nk + 6) nk ws hk4 (by omega) (by omega) (by omega) hs.1 (by omega) (by omega)
      (fun i hi => schedule_load hs hk4 hi (by omega)) (fun i hi hi' => schedule_expand hs T (by omega) hi (by omega) (by omega)),
    trace_expand T F d k' (nk + 6) nk ws' hk4' (by omega) (by omega) (by omega) hs'.1 (by omega) (by omega)
      (fun i hi => schedule_load hs' hk4' hi (by omega)) (fun i hi hi' => schedule_expand hs' T (by omega) hi (by omega) (by omega))] at h
  simp only [List.append_assoc, List.cons_append, List.nil_append, List.cons.injEq, true_and, List.append_cancel_left_eq] at h
  obtain ⟨h1, h2⟩ := flatMap_inj (fun i _ => by
    rw [List.length_cons, List.length_cons, expandTrace_length nk i _ (ws'.getD (i - 1) 0)]) h
  refine ⟨?_, by simpa using h2⟩
  refine key_recovered nk (4 * (nk + 6 + 1)) (by rcases hm with h | h | h <;> simp [h]) k k' hk4 hk4' fun i hi hi' hsp => ?_
  have e := h1 i (by rw [List.mem_range'_1]; omega)
  have e := expandTrace_inj hsp (List.cons.inj e).2
  have l : i - 1 < ws.length := by rw [hs.1]; omega
  have l' : i - 1 < ws'.length := by rw [hs'.1]; omega
  rw [← hs.2 (i - 1) l, ← hs'.2 (i - 1) l']
  congr 1
  simpa [l, l'] using e

theorem low_words {xs ys : List U32} (h : xs.length = ys.length) : Low (words xs) (words ys) := by
  apply Low.seq
  induction xs generalizing ys with
  | nil =>
    obtain rfl := List.length_eq_zero_iff.1 h.symm
    exact .nil
  | cons x xs ih =>
    rcases ys with _ | ⟨y, ys⟩
    · cases h
    · exact .cons rfl (ih (by simpa using h))

theorem low_block (a b : Block) : Low (encBlock a) (encBlock b) := by
  have hl : a.toList.length = b.toList.length := by simp
  unfold encBlock encCols
  revert hl
  generalize a.toList = xs
  generalize b.toList = ys
  intro hl
  apply Low.seq
  induction xs generalizing ys with
  | nil =>
    obtain rfl := List.length_eq_zero_iff.1 hl.symm
    exact .nil
  | cons x xs ih =>
    rcases ys with _ | ⟨y, ys⟩
    · cases hl
    · exact .cons (low_bytes (by simp)) (ih ys (by simpa using hl))

/-- Functions that take all their parameters as data show the same for all data. -/
theorem same_trace (T : Target) (F d : Nat) (f : Fn) (hf : plain crate table f = true) {vs ws : List Val} (h : List.Forall₂ Low vs ws) :
    (callT T crate F d f vs).1 = (callT T crate F d f ws).1 := by
  obtain ⟨l, hl, ha⟩ := plain_iff hf
  exact (callT_any T F (fun f => .inl (crate_passes f)) d f (crate_passes f) l hl ha vs ws h).1

theorem add_round_key_inj {a b : Block} {k : List U32} (hk : 4 ≤ k.length) (h : add_round_key a k = add_round_key b k) : a = b := by
  apply abs_inj
  have h := congrArg abs h
  have w : ∀ c (hc : c < 4), wordByte (k[c]'(by omega)) = (fun j => wordByte (k.getD j 0)) (4 * 0 + c) := by
    intro c hc
    simp [show c < k.length by omega]
  rw [add_key_ok a k (fun j => wordByte (k.getD j 0)) 0 hk w, add_key_ok b k (fun j => wordByte (k.getD j 0)) 0 hk w] at h
  funext r c
  have := congrFun (congrFun h r) c
  simpa [Spec.Aes.addRoundKey] using this

theorem to_block_inj {p q : Vector U8 16} (h : to_block p = to_block q) : p = q := by
  have h := congrArg abs h
  rw [load_ok, load_ok] at h
  apply Vector.ext
  intro i hi
  have := congrFun (congrFun h ⟨i % 4, by omega⟩) ⟨i / 4, by omega⟩
  simpa [Spec.Aes.load, Spec.byteAt, show i % 4 + 4 * (i / 4) = i by omega, hi] using this

/-- What is seen of `AES::encrypt` and the first four words of the key schedule determine the block. -/
theorem encrypt_reveals (T : Target) (F d nr : Nat) (hr : 2 ≤ nr) (ks : List U32) (hl : 4 ≤ ks.length)
    (p q : Vector U8 16) (r r' : Trace)
    (h : (callT T crate F (d + 3) .aes_AES_encrypt [encAES ⟨nr, some ks⟩, bytes p.toList]).1 ++ r =
      (callT T crate F (d + 3) .aes_AES_encrypt [encAES ⟨nr, some ks⟩, bytes q.toList]).1 ++ r') : p = q := by
  obtain ⟨t, ht⟩ := trace_encrypt T F d nr ks p hl hr
  obtain ⟨t', ht'⟩ := trace_encrypt T F d nr ks q hl hr
  rw [ht, ht', same_trace T F (d + 2) .aes_to_block (by decide) (.cons (low_bytes (by simp : p.toList.length = q.toList.length)) .nil),
    same_trace T F (d + 2) .aes_AESEncrypt_add_round_key (by decide)
      (.cons (low_block (to_block p) (to_block q)) (.cons (low_words rfl) .nil))] at h
  simp only [List.cons_append, List.append_assoc, List.cons.injEq, true_and, List.append_cancel_left_eq] at h
  exact to_block_inj (add_round_key_inj (by simp; omega) (block_inj h))

theorem decShiftRows_inj {a b : Block} (h : decShiftRows a = decShiftRows b) : a = b := by
  apply abs_inj
  have h := congrArg abs h
  rw [shift_dec, shift_dec] at h
  funext r c
  have e : ∀ c r : Fin 4, c + r - r = c := by decide
  have := congrFun (congrFun h r) (c + r)
  simpa only [Spec.Aes.invShiftRows, e] using this

/-- What is seen of `AES::decrypt` and the last four words of the key schedule determine the block. -/
theorem decrypt_reveals (T : Target) (F d nr : Nat) (hr : 2 ≤ nr) (hr' : nr ≤ 14) (ks : List U32) (hl : ks.length = 4 * (nr + 1))
    (p q : Vector U8 16) (r r' : Trace)
    (h : (callT T crate F (d + 3) .aes_AES_decrypt [encAES ⟨nr, some ks⟩, bytes p.toList]).1 ++ r =
      (callT T crate F (d + 3) .aes_AES_decrypt [encAES ⟨nr, some ks⟩, bytes q.toList]).1 ++ r') : p = q := by
  obtain ⟨t, ht⟩ := trace_decrypt T F d nr ks p hl hr hr'
  obtain ⟨t', ht'⟩ := trace_decrypt T F d nr ks q hl hr hr'
  rw [ht, ht', same_trace T F (d + 2) .aes_to_block (by decide) (.cons (low_bytes (by simp : p.toList.length = q.toList.length)) .nil),
    same_trace T F (d + 2) .aes_AESDecrypt_add_round_key (by decide)
      (.cons (low_block (to_block p) (to_block q)) (.cons (low_words rfl) .nil)),
    same_trace T F (d + 2) .aes_AESDecrypt_shift_rows (by decide)
      (.cons (low_block (add_round_key (to_block p) (ks.drop (4 * nr))) (add_round_key (to_block q) (ks.drop (4 * nr)))) .nil)] at h
  simp only [List.cons_append, List.append_assoc, List.cons.injEq, true_and, List.append_cancel_left_eq] at h
  exact to_block_inj (add_round_key_inj (by simp; omega) (decShiftRows_inj (decBlock_inj h)))

/-! ### In terms of the API -/

theorem session_fst {T : Target} {fuel depth : Nat} {new : Fn × List Val} {obj : Val} {os : List Val}
    (h : call T crate fuel depth new.1 new.2 = .ok (obj, os)) (cs : List (Fn × List Val)) :
    (sessionT T fuel depth new cs).1 = .call new.1 :: (callT T crate fuel depth new.1 new.2).1 ++ (historyT T fuel depth obj cs).1 := by
  rw [← callT_erase] at h
  rw [sessionT]
  rcases hc : callT T crate fuel depth new.1 new.2 with ⟨t, r⟩
  rw [hc] at h
  obtain rfl : r = _ := h
  rfl

theorem history_fst (T : Target) (fuel depth : Nat) (obj : Val) (c : Fn × List Val) (cs : List (Fn × List Val)) :
    ∃ r, (historyT T fuel depth obj (c :: cs)).1 = .call c.1 :: (callT T crate fuel depth c.1 (obj :: c.2)).1 ++ r := by
  rw [historyT]
  rcases h : invokeT T fuel depth obj c with ⟨t, e | ⟨obj', v⟩⟩
  · refine ⟨[], ?_⟩
    rw [List.append_nil]
    exact (congrArg Prod.fst h).symm
  · refine ⟨(historyT T fuel depth obj' cs).1, ?_⟩
    rw [show Event.call c.1 :: (callT T crate fuel depth c.1 (obj :: c.2)).1 = t from congrArg Prod.fst h]

theorem history_fst_ok {T : Target} {fuel depth : Nat} {obj obj' v : Val} {c : Fn × List Val}
    (h : call T crate fuel depth c.1 (obj :: c.2) = .ok (v, [obj'])) (cs : List (Fn × List Val)) :
    (historyT T fuel depth obj (c :: cs)).1 =
      .call c.1 :: (callT T crate fuel depth c.1 (obj :: c.2)).1 ++ (historyT T fuel depth obj' cs).1 := by
  rw [← callT_erase] at h
  rw [historyT, invokeT]
  rcases hc : callT T crate fuel depth c.1 (obj :: c.2) with ⟨t, r⟩
  rw [hc] at h
  obtain rfl : r = _ := h
  rfl

/-- **C74.** Whoever sees the execution of `AES::new()`, `init` and `encrypt` or `decrypt` learns the whole key and the whole block:
two such sessions, with whatever calls after them, look the same only if the key and the block are the same. -/
theorem C74_aes (T : Target) (fuel depth : Nat) (hf : 65 ≤ fuel) (hd : 8 ≤ depth) (f : Fn)
    (hfn : f = .aes_AES_encrypt ∨ f = .aes_AES_decrypt) (k k' : List U8) (hk : ValidKey k) (hk' : ValidKey k') (p q : Vector U8 16)
    (cs cs' : List (Fn × List Val))
    (h : (sessionT T fuel depth (.aes_AES_new, []) ((.aes_AES_init, [bytes k]) :: (f, [bytes p.toList]) :: cs)).1 =
      (sessionT T fuel depth (.aes_AES_new, []) ((.aes_AES_init, [bytes k']) :: (f, [bytes q.toList]) :: cs')).1) :
    k = k' ∧ p = q := by
  obtain ⟨F, rfl⟩ := Nat.exists_eq_add_of_le' hf
  obtain ⟨d, rfl⟩ := Nat.exists_eq_add_of_le' hd
  obtain ⟨a, e, -, hc, ws, hw, hs⟩ := Aes.init_valid T .new k hk
  obtain ⟨a', e', -, hc', ws', hw', hs'⟩ := Aes.init_valid T .new k' hk'
  have hi : call T crate (F + 65) (d + 8) .aes_AES_init [encAES .new, bytes k] = .ok (encRes encAESError encUnit (.ok ()), [encAES a]) := by
    rw [src_AES_init T F (d + 5), e]; rfl
  have hi' : call T crate (F + 65) (d + 8) .aes_AES_init [encAES .new, bytes k'] = .ok (encRes encAESError encUnit (.ok ()), [encAES a']) := by
    rw [src_AES_init T F (d + 5), e']; rfl
  rw [session_fst (src_AES_new T (F + 65) (d + 7)), session_fst (src_AES_new T (F + 65) (d + 7)),
    history_fst_ok (c := (.aes_AES_init, [bytes k])) hi, history_fst_ok (c := (.aes_AES_init, [bytes k'])) hi'] at h
  have h := List.append_cancel_left h
  simp only [List.cons_append, List.cons.injEq, true_and] at h
  obtain ⟨rfl, hrest⟩ := init_reveals T F (d + 5) .new .new k k' hk hk' _ _ h
  clear h
  obtain rfl : a = a' := by
    rw [e] at e'
    cases e'
    rfl
  refine ⟨rfl, ?_⟩
  obtain ⟨r, hr⟩ := history_fst T (F + 65) (d + 8) (encAES a) (f, [bytes p.toList]) cs
  obtain ⟨r', hr'⟩ := history_fst T (F + 65) (d + 8) (encAES a) (f, [bytes q.toList]) cs'
  rw [hr, hr'] at hrest
  have h := (List.cons.inj hrest).2
  have ha : a = ⟨k.length / 4 + 6, some ws⟩ := by
    rcases a with ⟨n, ks⟩
    cases hc
    cases hw
    rfl
  have hl := hs.1
  have hk6 : k.length / 4 ≤ 8 := by rcases hk with h | h | h <;> omega
  rw [ha] at h hl
  rcases hfn with rfl | rfl
  · exact encrypt_reveals T (F + 65) (d + 5) (k.length / 4 + 6) (by omega) ws (by omega) p q r r' h
  · exact decrypt_reveals T (F + 65) (d + 5) (k.length / 4 + 6) (by omega) (by omega) ws hl p q r r' h

/-- **C74.** Whoever sees the execution of `Cipher::new(iv)` and `init` learns the whole key, whatever the initialization vectors are
and whatever is called afterwards. -/
theorem C74_cipher (T : Target) (fuel depth : Nat) (hf : 65 ≤ fuel) (hd : 8 ≤ depth) (k k' : List U8) (hk : ValidKey k)
    (hk' : ValidKey k') (iv iv' : Vector U8 16) (cs cs' : List (Fn × List Val))
    (h : (sessionT T fuel depth (.aes_cbc_Cipher_new, [bytes iv.toList]) ((.aes_cbc_Cipher_init, [bytes k]) :: cs)).1 =
      (sessionT T fuel depth (.aes_cbc_Cipher_new, [bytes iv'.toList]) ((.aes_cbc_Cipher_init, [bytes k']) :: cs')).1) : k = k' := by
  obtain ⟨F, rfl⟩ := Nat.exists_eq_add_of_le' hf
  obtain ⟨d, rfl⟩ := Nat.exists_eq_add_of_le' hd
  rw [session_fst (src_Cipher_new T (F + 65) (d + 6) iv), session_fst (src_Cipher_new T (F + 65) (d + 6) iv'),
    show callT T crate (F + 65) (d + 8) (.aes_cbc_Cipher_new, [bytes iv.toList]).1 (Fn.aes_cbc_Cipher_new, [bytes iv.toList]).2 =
      callT T crate (F + 65) (d + 8) .aes_cbc_Cipher_new [bytes iv.toList] from rfl,
    same_trace T (F + 65) (d + 8) .aes_cbc_Cipher_new (by decide +kernel)
      (.cons (low_bytes (show iv.toList.length = iv'.toList.length by simp)) .nil)] at h
  have h := List.append_cancel_left h
  obtain ⟨r, hr⟩ := history_fst T (F + 65) (d + 8) (encCipher (.new iv)) (.aes_cbc_Cipher_init, [bytes k]) cs
  obtain ⟨r', hr'⟩ := history_fst T (F + 65) (d + 8) (encCipher (.new iv')) (.aes_cbc_Cipher_init, [bytes k']) cs'
  rw [hr, hr'] at h
  have h : (callT T crate (F + 65) (d + 4 + 4) .aes_cbc_Cipher_init [encCipher (.new iv), bytes k]).1 ++ r =
    (callT T crate (F + 65) (d + 4 + 4) .aes_cbc_Cipher_init [encCipher (.new iv'), bytes k']).1 ++ r' := (List.cons.inj h).2
  rw [trace_Cipher_init T F (d + 4) (.new iv) k hk, trace_Cipher_init T F (d + 4) (.new iv') k' hk'] at h
  simp only [List.cons_append, List.append_assoc, List.cons.injEq, true_and] at h
  exact (init_reveals T F (d + 4) _ _ k k' hk hk' _ _ h).1

/-- **C74.** Whoever sees the execution of `Decipher::new(iv)` and `init` learns the whole key. -/
theorem C74_decipher (T : Target) (fuel depth : Nat) (hf : 65 ≤ fuel) (hd : 8 ≤ depth) (k k' : List U8) (hk : ValidKey k)
    (hk' : ValidKey k') (iv iv' : Vector U8 16) (cs cs' : List (Fn × List Val))
    (h : (sessionT T fuel depth (.aes_cbc_Decipher_new, [bytes iv.toList]) ((.aes_cbc_Decipher_init, [bytes k]) :: cs)).1 =
      (sessionT T fuel depth (.aes_cbc_Decipher_new, [bytes iv'.toList]) ((.aes_cbc_Decipher_init, [bytes k']) :: cs')).1) : k = k' := by
  obtain ⟨F, rfl⟩ := Nat.exists_eq_add_of_le' hf
  obtain ⟨d, rfl⟩ := Nat.exists_eq_add_of_le' hd
  rw [session_fst (src_Decipher_new T (F + 65) (d + 6) iv), session_fst (src_Decipher_new T (F + 65) (d + 6) iv'),
    show callT T crate (F + 65) (d + 8) (.aes_cbc_Decipher_new, [bytes iv.toList]).1 (Fn.aes_cbc_Decipher_new, [bytes iv.toList]).2 =
      callT T crate (F + 65) (d + 8) .aes_cbc_Decipher_new [bytes iv.toList] from rfl,
    same_trace T (F + 65) (d + 8) .aes_cbc_Decipher_new (by decide +kernel)
      (.cons (low_bytes (show iv.toList.length = iv'.toList.length by simp)) .nil)] at h
  have h := List.append_cancel_left h
  obtain ⟨r, hr⟩ := history_fst T (F + 65) (d + 8) (encDecipher (.new iv)) (.aes_cbc_Decipher_init, [bytes k]) cs
  obtain ⟨r', hr'⟩ := history_fst T (F + 65) (d + 8) (encDecipher (.new iv')) (.aes_cbc_Decipher_init, [bytes k']) cs'
  rw [hr, hr'] at h
  have h : (callT T crate (F + 65) (d + 4 + 4) .aes_cbc_Decipher_init [encDecipher (.new iv), bytes k]).1 ++ r =
    (callT T crate (F + 65) (d + 4 + 4) .aes_cbc_Decipher_init [encDecipher (.new iv'), bytes k']).1 ++ r' := (List.cons.inj h).2
  rw [trace_Decipher_init T F (d + 4) (.new iv) k hk, trace_Decipher_init T F (d + 4) (.new iv') k' hk'] at h
  simp only [List.cons_append, List.append_assoc, List.cons.injEq, true_and] at h
  exact (init_reveals T F (d + 4) _ _ k k' hk hk' _ _ h).1

/-- Two keys: whatever is encrypted or decrypted, sessions with them look different. -/
example (T : Target) (iv iv' : Vector U8 16) (cs cs' : List (Fn × List Val)) :
    (sessionT T 65 8 (.aes_cbc_Cipher_new, [bytes iv.toList]) ((.aes_cbc_Cipher_init, [bytes (List.replicate 16 0)]) :: cs)).1 ≠
      (sessionT T 65 8 (.aes_cbc_Cipher_new, [bytes iv'.toList]) ((.aes_cbc_Cipher_init, [bytes (List.replicate 16 1)]) :: cs')).1 ∧
    (sessionT T 65 8 (.aes_cbc_Decipher_new, [bytes iv.toList]) ((.aes_cbc_Decipher_init, [bytes (List.replicate 16 0)]) :: cs)).1 ≠
      (sessionT T 65 8 (.aes_cbc_Decipher_new, [bytes iv'.toList]) ((.aes_cbc_Decipher_init, [bytes (List.replicate 16 1)]) :: cs')).1 :=
  ⟨fun h => absurd (C74_cipher T 65 8 (by decide) (by decide) _ _ (.inl rfl) (.inl rfl) iv iv' cs cs' h) (by decide),
    fun h => absurd (C74_decipher T 65 8 (by decide) (by decide) _ _ (.inl rfl) (.inl rfl) iv iv' cs cs' h) (by decide)⟩

/-- The hypotheses of C74 meet concrete values, and the sessions they describe do look different: two keys that differ in one byte,
and two blocks that do. -/
example : ValidKey (List.replicate 16 0) ∧ ValidKey (1 :: List.replicate 15 0) ∧
    (sessionT ⟨.w64, true⟩ 65 8 (.aes_AES_new, [])
        [(.aes_AES_init, [bytes (List.replicate 16 0)]), (.aes_AES_encrypt, [bytes (List.replicate 16 0)])]).1 ≠
      (sessionT ⟨.w64, true⟩ 65 8 (.aes_AES_new, [])
        [(.aes_AES_init, [bytes (1 :: List.replicate 15 0)]), (.aes_AES_encrypt, [bytes (List.replicate 16 0)])]).1 := by
  refine ⟨.inl rfl, .inl rfl, fun h => ?_⟩
  have := (C74_aes ⟨.w64, true⟩ 65 8 (by omega) (by omega) .aes_AES_encrypt (.inl rfl) (List.replicate 16 0) (1 :: List.replicate 15 0)
    (.inl rfl) (.inl rfl) (.replicate 16 0) (.replicate 16 0) [] [] h).1
  exact absurd this (by decide)

end Verif.Props.SideChannel
