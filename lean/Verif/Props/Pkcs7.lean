import Verif.Proof.Pkcs7

/-! Property C40: `pkcs7.rs` for every block size. -/

namespace Verif.Props.Pkcs7
open Verif Verif.Pkcs7 Spec.Cbc

/-- One `write` on a `Pad`; the bytes it emits are appended to those emitted before. -/
def padFeed (T : Target) (s : Pad × List U8) (b : List U8) : M (Pad × List U8) := do
  let (p, o) ← s.1.write T b
  return (p, s.2 ++ o.getD [])

/-- Feed the chunks to a new `Pad` and flush it; everything emitted, in order. -/
def padAll (T : Target) (k : Nat) (chunks : List (List U8)) : M (List U8) := do
  let (p, out) ← chunks.foldlM (padFeed T) (Pad.new k, [])
  let (_, last) ← p.flush T
  return out ++ last

/-- One `write` on a `Unpad`; the bytes it emits are appended to those emitted before. -/
def unpadFeed (T : Target) (s : Unpad × List U8) (b : List U8) : M (Unpad × List U8) := do
  let (p, o) ← s.1.write T b
  return (p, s.2 ++ o.getD [])

/-- Feed the chunks to a new `Unpad` and flush it; everything emitted, in order, or the error of the flush. -/
def unpadAll (T : Target) (k : Nat) (chunks : List (List U8)) : M (Except UnpadError (List U8)) := do
  let (p, out) ← chunks.foldlM (unpadFeed T) (Unpad.new k, [])
  let (_, last) ← p.flush T
  match last with
  | .ok last => return .ok (out ++ last)
  | .error e => return .error e

theorem drop_append_le {α : Type} (l b : List α) (n : Nat) (h : n ≤ l.length) : l.drop n ++ b = (l ++ b).drop n := by
  rw [List.drop_append, Nat.sub_eq_zero_of_le h, List.drop_zero]

theorem take_add_drop {α : Type} (l b : List α) (n k : Nat) (h : n ≤ l.length) :
    l.take n ++ ((l ++ b).drop n).take k = (l ++ b).take (n + k) := by
  rw [List.take_add, List.take_append_of_le_length h]

theorem pad_stream (T : Target) (k : Nat) (hk : 1 ≤ k) (chunks : List (List U8)) (m : List U8) :
    chunks.foldlM (padFeed T) (⟨k, m.drop (padCut k m.length)⟩, m.take (padCut k m.length))
      = .ok (⟨k, (m ++ chunks.flatten).drop (padCut k (m ++ chunks.flatten).length)⟩,
          (m ++ chunks.flatten).take (padCut k (m ++ chunks.flatten).length)) := by
  induction chunks generalizing m with
  | nil => simp
  | cons b chunks ih =>
    have hl := padCut_le k m.length
    obtain ⟨o, h1, h2, _⟩ := pad_write T k hk (m.drop (padCut k m.length)) b
    rw [drop_append_le m b _ hl] at h1 h2
    have hs := padCut_step k m.length (m ++ b).length (by simp)
    rw [List.length_drop] at h1 h2
    rw [List.drop_drop, hs] at h1
    rw [List.foldlM_cons, padFeed]
    simp only []
    rw [h1]
    simp only [ok_bind, pure_eq_ok]
    rw [h2, take_add_drop m b _ _ hl, hs, ih (m ++ b), List.append_assoc, List.flatten_cons]

theorem unpad_stream (T : Target) (k : Nat) (hk : 1 ≤ k) (chunks : List (List U8)) (m : List U8) :
    chunks.foldlM (unpadFeed T) (⟨k, m.drop (unpadCut k m.length)⟩, m.take (unpadCut k m.length))
      = .ok (⟨k, (m ++ chunks.flatten).drop (unpadCut k (m ++ chunks.flatten).length)⟩,
          (m ++ chunks.flatten).take (unpadCut k (m ++ chunks.flatten).length)) := by
  induction chunks generalizing m with
  | nil => simp
  | cons b chunks ih =>
    have hl := unpadCut_le k m.length
    obtain ⟨o, h1, h2⟩ := unpad_write T k hk (m.drop (unpadCut k m.length)) b
    rw [drop_append_le m b _ hl] at h1 h2
    have hs := unpadCut_step k m.length (m ++ b).length (by simp)
    rw [List.length_drop] at h1 h2
    rw [List.drop_drop, hs] at h1
    rw [List.foldlM_cons, unpadFeed]
    simp only []
    rw [h1]
    simp only [ok_bind, pure_eq_ok]
    rw [h2, take_add_drop m b _ _ hl, hs, ih (m ++ b), List.append_assoc, List.flatten_cons]

/-- **C40.** For every block size except 0 and every fragmentation, padding appends `k - len mod k` bytes holding this
number (reduced to a byte). -/
theorem C40_pad (T : Target) (k : Nat) (hk : 1 ≤ k) (chunks : List (List U8)) :
    padAll T k chunks = .ok (pkcs7 k chunks.flatten) := by
  have h := pad_stream T k hk chunks []
  simp only [List.nil_append, List.drop_nil, List.take_nil] at h
  unfold padAll
  rw [show Pad.new k = ⟨k, []⟩ from rfl, h]
  simp only [ok_bind]
  have hlen : (chunks.flatten.drop (padCut k chunks.flatten.length)).length = chunks.flatten.length % k := by
    rw [List.length_drop, padCut_rest]
  rw [pad_flush _ _ _ (by rw [hlen]; exact Nat.le_of_lt (Nat.mod_lt _ (by omega))), hlen]
  simp only [ok_bind, pure_eq_ok]
  rw [← List.append_assoc, List.take_append_drop, pkcs7]

/-- With block size 0 every `write` panics with a division by zero. -/
theorem C40_zero (T : Target) (b : List U8) (chunks : List (List U8)) : padAll T 0 (b :: chunks) = .error .remZero := by
  unfold padAll
  rw [List.foldlM_cons]
  have : Pad.write T (Pad.new 0) b = .error .remZero := by
    simp [Pad.write, Pad.new, Target.rem]
  rw [padFeed]
  simp only [this]
  rfl

theorem unpad_rest (k : Nat) (hk : 1 ≤ k) (n : Nat) :
    n - unpadCut k n = k ↔ n ≠ 0 ∧ n % k = 0 := by
  rw [unpadCut]
  have h1 := Nat.div_add_mod (n - 1) k
  have h2 := Nat.mod_lt (n - 1) (show k > 0 by omega)
  by_cases h0 : n = 0
  · subst h0; simp; omega
  have hn : n = k * ((n - 1) / k) + ((n - 1) % k + 1) := by omega
  generalize (n - 1) / k = q at *
  generalize (n - 1) % k = r at *
  have hm : n % k = (r + 1) % k := by rw [hn, Nat.mul_add_mod]
  rw [hm]
  by_cases hr : r + 1 = k
  · rw [hr, Nat.mod_self]; omega
  · rw [Nat.mod_eq_of_lt (by omega)]; omega

/-- **C40.** Exact behaviour of unpadding for block sizes 1 to 255, on every input and every fragmentation: empty input and
incomplete blocks are `UnfinishedBlock`; otherwise, with `v` the last byte, the last `v` bytes are removed if `v` is at most
the block size and they all are `v`, and the result is `InvalidPadding` if not. -/
theorem C40_unpad (T : Target) (k : Nat) (hk : 1 ≤ k) (hk' : k ≤ 255) (chunks : List (List U8)) :
    (chunks.flatten = [] ∨ chunks.flatten.length % k ≠ 0 → unpadAll T k chunks = .ok (.error .UnfinishedBlock)) ∧
    (∀ v, chunks.flatten.getLast? = some v → chunks.flatten.length % k = 0 →
      (v.toNat ≤ k ∧ (∀ b ∈ chunks.flatten.drop (chunks.flatten.length - v.toNat), b = v) →
        unpadAll T k chunks = .ok (.ok (chunks.flatten.take (chunks.flatten.length - v.toNat)))) ∧
      (¬(v.toNat ≤ k ∧ (∀ b ∈ chunks.flatten.drop (chunks.flatten.length - v.toNat), b = v)) →
        unpadAll T k chunks = .ok (.error .InvalidPadding))) := by
  have h := unpad_stream T k hk chunks []
  simp only [List.nil_append, List.drop_nil, List.take_nil] at h
  have hU : Unpad.new k = ⟨k, []⟩ := rfl
  unfold unpadAll
  rw [hU, h]
  simp only [ok_bind]
  generalize chunks.flatten = m
  have hlen : (m.drop (unpadCut k m.length)).length = m.length - unpadCut k m.length := List.length_drop ..
  constructor
  · intro hm
    rw [unpad_flush_unfinished]
    · rfl
    · rw [hlen, ne_eq, unpad_rest k hk]
      rcases hm with hm | hm
      · subst hm; simp
      · exact fun h => hm h.2
  · intro v hv hmod
    have hne : m.length ≠ 0 := by
      intro h0
      rw [List.length_eq_zero_iff.1 h0] at hv
      cases hv
    have hfull : m.length - unpadCut k m.length = k := (unpad_rest k hk _).2 ⟨hne, hmod⟩
    have hge : unpadCut k m.length + k = m.length := by omega
    have hlast : (m.drop (unpadCut k m.length)).getLast? = some v := by
      rw [List.getLast?_drop, if_neg (by omega), hv]
    obtain ⟨h1, h2⟩ := unpad_flush_full T k hk hk' _ v (hlen.trans hfull) hlast
    have hdrop (hle : v.toNat ≤ k) : (m.drop (unpadCut k m.length)).drop (k - v.toNat) = m.drop (m.length - v.toNat) := by
      rw [List.drop_drop]; congr 1; omega
    constructor
    · rintro ⟨hle, hall⟩
      rw [h1 ⟨hle, by rw [hdrop hle]; exact hall⟩]
      simp only [ok_bind, pure_eq_ok]
      rw [← List.take_add]
      congr 3
      omega
    · intro hn
      rw [h2]
      · rfl
      · rintro ⟨hle, hall⟩
        rw [hdrop hle] at hall
        exact hn ⟨hle, hall⟩

/-- With blocks of 4 bytes, 5 6 2 2 in two pieces is 5 6. -/
example (T : Target) : unpadAll T 4 [[5, 6, 2], [2]] = .ok (.ok [5, 6]) :=
  ((C40_unpad T 4 (by decide) (by decide) [[5, 6, 2], [2]]).2 2 rfl rfl).1 (by decide)

theorem pkcs7_facts (k : Nat) (hk : 1 ≤ k) (hk' : k ≤ 255) (m : List U8) :
    ∃ v : U8, 1 ≤ v.toNat ∧ v.toNat ≤ k ∧ pkcs7 k m = m ++ List.replicate v.toNat v ∧ (pkcs7 k m).length % k = 0 := by
  have hlt := Nat.mod_lt m.length (show k > 0 by omega)
  have e : (BitVec.ofNat 8 (k - m.length % k)).toNat = k - m.length % k := by
    rw [BitVec.toNat_ofNat, Nat.mod_eq_of_lt (by omega)]
  refine ⟨BitVec.ofNat 8 (k - m.length % k), by omega, by omega, by rw [e]; rfl, ?_⟩
  rw [pkcs7, List.length_append, List.length_replicate]
  have h1 := Nat.div_add_mod m.length k
  have : m.length + (k - m.length % k) = k * (m.length / k + 1) := by rw [Nat.mul_succ]; omega
  rw [this, Nat.mul_mod_right]

/-- **C40.** For every block size from 1 to 255, unpadding any fragmentation of a padded message returns the message. -/
theorem C40_roundtrip (T : Target) (k : Nat) (hk : 1 ≤ k) (hk' : k ≤ 255) (m : List U8) (chunks : List (List U8))
    (h : chunks.flatten = pkcs7 k m) : unpadAll T k chunks = .ok (.ok m) := by
  obtain ⟨v, h1, h2, h3, h4⟩ := pkcs7_facts k hk hk' m
  have hl : chunks.flatten.length - v.toNat = m.length := by rw [h, h3]; simp
  have := ((C40_unpad T k hk hk' chunks).2 v (by
    rw [h, h3, List.getLast?_append, List.getLast?_replicate, if_neg (by omega)]; rfl) (by rw [h]; exact h4)).1
    (by
      refine ⟨h2, ?_⟩
      rw [hl, h, h3, List.drop_left]
      intro b hb
      exact (List.mem_replicate.1 hb).2)
  rw [this, hl, h, h3, List.take_left]

/-- A message of 3 bytes in blocks of 255. -/
example (T : Target) := C40_roundtrip T 255 (by decide) (by decide) [1, 2, 3] [(pkcs7 255 [1, 2, 3]).take 2, (pkcs7 255 [1, 2, 3]).drop 2] (by simp)

/-- **C40.** Padding and unpadding composed, with two independent fragmentations. -/
theorem C40_pad_unpad (T : Target) (k : Nat) (hk : 1 ≤ k) (hk' : k ≤ 255) (chunks chunks' : List (List U8)) :
    ∃ padded, padAll T k chunks = .ok padded ∧
      (chunks'.flatten = padded → unpadAll T k chunks' = .ok (.ok chunks.flatten)) :=
  ⟨_, C40_pad T k hk chunks, fun h => C40_roundtrip T k hk hk' _ _ h⟩

/-- A concrete instance: block size 4, a message of 5 bytes, the padded text cut after the first byte. -/
example (T : Target) : ∃ padded, padAll T 4 [[1, 2], [3, 4, 5]] = .ok padded ∧ padded = [1, 2, 3, 4, 5, 3, 3, 3] ∧
    unpadAll T 4 [[1], [2, 3, 4, 5, 3, 3, 3]] = .ok (.ok [1, 2, 3, 4, 5]) := by
  obtain ⟨p, h1, h2⟩ := C40_pad_unpad T 4 (by decide) (by decide) [[1, 2], [3, 4, 5]] [[1], [2, 3, 4, 5, 3, 3, 3]]
  have e := C40_pad T 4 (by decide) [[1, 2], [3, 4, 5]]
  have hp : p = [1, 2, 3, 4, 5, 3, 3, 3] := by
    rw [h1] at e
    injection e
  exact ⟨p, h1, hp, h2 (by rw [hp]; rfl)⟩

/-- **C40.** With block size 256 no padded message is recovered, whatever the message and the fragmentation. -/
theorem C40_256 (T : Target) (m : List U8) (chunks : List (List U8)) (h : chunks.flatten = pkcs7 256 m) :
    unpadAll T 256 chunks ≠ .ok (.ok m) := by
  have hs := unpad_stream T 256 (by decide) chunks []
  simp only [List.nil_append, List.drop_nil, List.take_nil] at hs
  have hU : Unpad.new 256 = ⟨256, []⟩ := rfl
  unfold unpadAll
  rw [hU, hs, h]
  simp only [ok_bind]
  have hlt := Nat.mod_lt m.length (show 256 > 0 by omega)
  have hplen : (pkcs7 256 m).length = m.length + (256 - m.length % 256) := by simp [pkcs7]
  have hfull : (pkcs7 256 m).length - unpadCut 256 (pkcs7 256 m).length = 256 := by
    rw [unpad_rest _ (by decide), hplen]; omega
  have hlast : (pkcs7 256 m).getLast? = some (BitVec.ofNat 8 (256 - m.length % 256)) := by
    rw [pkcs7, List.getLast?_append, List.getLast?_replicate, if_neg (by omega)]; rfl
  generalize hd : (pkcs7 256 m).drop (unpadCut 256 (pkcs7 256 m).length) = d
  have hdl : d.length = 256 := by rw [← hd, List.length_drop]; exact hfull
  have hdlast : d[255]'(by omega) = BitVec.ofNat 8 (256 - m.length % 256) := by
    have h1 : d.getLast? = some (BitVec.ofNat 8 (256 - m.length % 256)) := by
      rw [← hd, List.getLast?_drop, if_neg (by omega), hlast]
    rw [List.getLast?_eq_getElem?, hdl, List.getElem?_eq_getElem (by omega)] at h1
    exact Option.some.inj h1
  unfold Unpad.flush
  simp only []
  rw [if_neg (by simp [hdl]), T.sub_ok (by omega), hdl]
  simp only [ok_bind]
  rw [idx_ok _ _ (by omega)]
  simp only [ok_bind, show 256 - 1 = 255 from rfl, hdlast]
  by_cases h0 : m.length % 256 = 0
  · rw [h0, if_neg (by decide)]
    rw [show (BitVec.ofNat 8 (256 - 0)).toNat = 0 from rfl, T.sub_ok (by omega)]
    simp only [ok_bind]
    rw [sliceFrom, if_pos (by omega), show d.drop (256 - 0) = [] from List.drop_eq_nil_of_le (by omega)]
    simp only [ok_bind]
    rw [if_neg (by simp), slice, if_pos (by omega)]
    simp only [ok_bind, pure_eq_ok]
    intro he
    injection he with he
    injection he with he
    have hl := congrArg List.length he
    rw [List.length_append, List.length_take, List.length_drop, List.length_take] at hl
    have := unpadCut_le 256 (pkcs7 256 m).length
    omega
  · rw [if_pos]
    · intro he
      cases he
    · rw [gt_iff_lt, BitVec.lt_def, BitVec.toNat_ofNat, BitVec.toNat_ofNat]
      omega

/-- A message of 3 bytes in blocks of 256. -/
example (T : Target) := C40_256 T [1, 2, 3] [(pkcs7 256 [1, 2, 3]).take 2, (pkcs7 256 [1, 2, 3]).drop 2] (by simp)

end Verif.Props.Pkcs7
