import Verif.Props.FromText
import Verif.Props.Pkcs7
import Mathlib.Data.List.Forall2

/-! C109: PKCS#7 padding for every block size, as written in the source text. -/

namespace Verif.Props.SourcePkcs7
open Verif Verif.Source Verif.Text Verif.Pkcs7 Verif.Props.Source Verif.Props.FromText Spec.Cbc
open Verif.Props.Pkcs7 (drop_append_le take_add_drop unpad_rest pkcs7_facts)

/-- The calls by which a message is padded: `write` for every piece, and `flush`. -/
def padCalls (chunks : List (List U8)) : List (Fn × List Val) :=
  chunks.map (fun c => (.pkcs7_Pad_write, [bytes c])) ++ [(.pkcs7_Pad_flush, [])]

/-- The calls by which the padding is taken off. -/
def unpadCalls (chunks : List (List U8)) : List (Fn × List Val) :=
  chunks.map (fun c => (.pkcs7_Unpad_write, [bytes c])) ++ [(.pkcs7_Unpad_flush, [])]

/-- What the answers to some `write`s contain. -/
def emitted (os : List (Option (List U8))) : List U8 := (os.map (·.getD [])).flatten

/-- Calls on an object: their answers, and what they leave. -/
inductive Runs (T : Target) (fuel depth : Nat) : Val → List (Fn × List Val) → List Val → Val → Prop where
  | nil (o : Val) : Runs T fuel depth o [] [] o
  | cons {o o' o'' v : Val} {c : Fn × List Val} {cs : List (Fn × List Val)} {vs : List Val} (h : invoke T fuel depth o c = .ok (o', v))
      (hs : Runs T fuel depth o' cs vs o'') : Runs T fuel depth o (c :: cs) (v :: vs) o''

variable {T : Target} {fuel depth : Nat}

theorem Runs.history {o o' : Val} {cs : List (Fn × List Val)} {vs : List Val} (h : Runs T fuel depth o cs vs o') :
    Source.history T fuel depth o cs = .ok vs := by
  induction h with
  | nil => rfl
  | cons h _ ih =>
    rw [Source.history, h]
    show (Source.history .. >>= _) = _
    rw [ih]
    rfl

theorem Runs.append {o o' o'' : Val} {cs cs' : List (Fn × List Val)} {vs vs' : List Val} (h : Runs T fuel depth o cs vs o')
    (h' : Runs T fuel depth o' cs' vs' o'') : Runs T fuel depth o (cs ++ cs') (vs ++ vs') o'' := by
  induction h with
  | nil => exact h'
  | cons h _ ih => exact .cons h (ih h')

theorem pad_writes (k : Nat) (hk : 1 ≤ k) (hd : 1 ≤ depth) (chunks : List (List U8)) (m : List U8) :
    ∃ os : List (Option (List U8)), Runs T fuel depth (encPad ⟨k, m.drop (padCut k m.length)⟩) (chunks.map fun c => (.pkcs7_Pad_write, [bytes c]))
        (os.map encOptBytes) (encPad ⟨k, (m ++ chunks.flatten).drop (padCut k (m ++ chunks.flatten).length)⟩) ∧
      os.length = chunks.length ∧ some [] ∉ os ∧
      ∀ i, m.take (padCut k m.length) ++ emitted (os.take i) =
        (m ++ (chunks.take i).flatten).take (padCut k (m ++ (chunks.take i).flatten).length) := by
  obtain ⟨d, rfl⟩ := Nat.exists_eq_add_of_le' hd
  induction chunks generalizing m with
  | nil => exact ⟨[], by simpa using Runs.nil _, rfl, by simp, by simp [emitted]⟩
  | cons b chunks ih =>
    have hl := padCut_le k m.length
    obtain ⟨o, h1, h2, h3⟩ := pad_write T k hk (m.drop (padCut k m.length)) b
    rw [drop_append_le m b _ hl] at h1 h2 h3
    have hs := padCut_step k m.length (m ++ b).length (by simp)
    rw [List.length_drop] at h1 h2 h3
    have h4 : o ≠ some [] := by
      rintro rfl
      have h5 := congrArg List.length h2
      have h6 : ¬ ((m ++ b).length - padCut k m.length < k) := fun h => by cases h3.2 h
      have h7 : 1 ≤ ((m ++ b).length - padCut k m.length) / k := (Nat.one_le_div_iff (by omega)).2 (by omega)
      have h8 : k * 1 ≤ padCut k ((m ++ b).length - padCut k m.length) := Nat.mul_le_mul_left k h7
      rw [List.length_take, List.length_drop] at h5
      change 0 = _ at h5
      omega
    rw [List.drop_drop, hs] at h1
    obtain ⟨os, r1, r2, r3, r4⟩ := ih (m ++ b)
    refine ⟨o :: os, ?_, by simp [r2], by simp [r3, Ne.symm h4], ?_⟩
    · rw [List.flatten_cons, ← List.append_assoc]
      refine .cons ?_ r1
      rw [invoke, src_Pad_write, h1]
      rfl
    · rintro (_ | i)
      · simp [emitted]
      · rw [List.take_succ_cons, List.take_succ_cons, List.flatten_cons, ← List.append_assoc m b, ← r4 i, emitted, List.map_cons, List.flatten_cons, h2,
          ← List.append_assoc, take_add_drop m b _ _ hl, hs]
        rfl

/-- One message, padded by a `Pad` that holds nothing. -/
theorem pad_message (k : Nat) (hk : 1 ≤ k) (hf : k < fuel) (hd : 1 ≤ depth) (chunks : List (List U8)) :
    ∃ (os : List (Option (List U8))) (last : List U8),
      Runs T fuel depth (encPad ⟨k, []⟩) (padCalls chunks) (os.map encOptBytes ++ [bytes last]) (encPad ⟨k, []⟩) ∧
      os.length = chunks.length ∧ some [] ∉ os ∧
      (∀ i, emitted (os.take i) = (chunks.take i).flatten.take (k * ((chunks.take i).flatten.length / k))) ∧
      emitted os ++ last = pkcs7 k chunks.flatten := by
  obtain ⟨os, r1, r2, r3, r4⟩ := pad_writes (T := T) (fuel := fuel) k hk hd chunks []
  simp only [List.nil_append, List.drop_nil, List.take_nil] at r1 r4
  have hlen : (chunks.flatten.drop (padCut k chunks.flatten.length)).length = chunks.flatten.length % k := by
    rw [List.length_drop, padCut_rest]
  have hfl := pad_flush T k (chunks.flatten.drop (padCut k chunks.flatten.length))
    (by rw [hlen]; exact Nat.le_of_lt (Nat.mod_lt _ (by omega)))
  obtain ⟨last, hlast⟩ : ∃ last, last = chunks.flatten.drop (padCut k chunks.flatten.length) ++
      List.replicate (k - (chunks.flatten.drop (padCut k chunks.flatten.length)).length)
        (BitVec.ofNat 8 (k - (chunks.flatten.drop (padCut k chunks.flatten.length)).length)) := ⟨_, rfl⟩
  rw [← hlast] at hfl
  refine ⟨os, last, r1.append (.cons ?_ (.nil _)), r2, r3, r4, ?_⟩
  · obtain ⟨d, rfl⟩ := Nat.exists_eq_add_of_le' hd
    rw [invoke, src_Pad_flush T fuel d _ hf, hfl]
    rfl
  · have h := r4 os.length
    rw [List.take_length, r2, List.take_length] at h
    rw [h, hlast, ← List.append_assoc, List.take_append_drop, hlen, pkcs7]

/-- C109: in the program in the text, a `Pad` with a block size `k` pads one message after the other, each written in any pieces: after every `write` the answers contain
the complete blocks so far and no answer is an empty vector, and together with that of `flush` they are the padded message. -/
theorem C109_pad {p : Program} (hp : IsProgram Files.lib sources p) (T : Target) (fuel depth : Nat) (hd : 8 ≤ depth) (k : Nat) (hk : 1 ≤ k)
    (hk' : k < 2 ^ 30) (hf : k < fuel) (messages : List (List (List U8))) :
    ∃ answers : List (List (Option (List U8)) × List U8),
      sessionIn p T fuel depth (.pkcs7_Pad_new, [.usize k]) (messages.flatMap padCalls) =
        .ok (answers.flatMap fun a => a.1.map encOptBytes ++ [bytes a.2]) ∧
      List.Forall₂ (fun chunks a => a.1.length = chunks.length ∧ some [] ∉ a.1 ∧
        (∀ i, emitted (a.1.take i) = (chunks.take i).flatten.take (k * ((chunks.take i).flatten.length / k))) ∧
        emitted a.1 ++ a.2 = pkcs7 k chunks.flatten) messages answers := by
  have key : ∃ answers : List (List (Option (List U8)) × List U8),
      Runs T fuel depth (encPad ⟨k, []⟩) (messages.flatMap padCalls) (answers.flatMap fun a => a.1.map encOptBytes ++ [bytes a.2]) (encPad ⟨k, []⟩) ∧
      List.Forall₂ (fun chunks a => a.1.length = chunks.length ∧ some [] ∉ a.1 ∧
        (∀ i, emitted (a.1.take i) = (chunks.take i).flatten.take (k * ((chunks.take i).flatten.length / k))) ∧
        emitted a.1 ++ a.2 = pkcs7 k chunks.flatten) messages answers := by
    induction messages with
    | nil => exact ⟨[], .nil _, .nil⟩
    | cons chunks messages ih =>
      obtain ⟨answers, h1, h2⟩ := ih
      obtain ⟨os, last, r1, r2⟩ := pad_message (T := T) (fuel := fuel) k hk hf (show 1 ≤ depth by omega) chunks
      exact ⟨(os, last) :: answers, r1.append h1, .cons r2 h2⟩
  obtain ⟨answers, h1, h2⟩ := key
  refine ⟨answers, ?_, h2⟩
  rw [C86_text.2 p hp, sessionIn_crate, session]
  obtain ⟨d, rfl⟩ := Nat.exists_eq_add_of_le' (show 1 ≤ depth by omega)
  rw [src_Pad_new T fuel d k (by omega)]
  exact h1.history

theorem unpad_writes (k : Nat) (hk : 1 ≤ k) (hd : 1 ≤ depth) (chunks : List (List U8)) (m : List U8) :
    ∃ os : List (Option (List U8)), Runs T fuel depth (encUnpad ⟨k, m.drop (unpadCut k m.length)⟩) (chunks.map fun c => (.pkcs7_Unpad_write, [bytes c]))
        (os.map encOptBytes) (encUnpad ⟨k, (m ++ chunks.flatten).drop (unpadCut k (m ++ chunks.flatten).length)⟩) ∧
      os.length = chunks.length ∧
      ∀ i, m.take (unpadCut k m.length) ++ emitted (os.take i) =
        (m ++ (chunks.take i).flatten).take (unpadCut k (m ++ (chunks.take i).flatten).length) := by
  obtain ⟨d, rfl⟩ := Nat.exists_eq_add_of_le' hd
  induction chunks generalizing m with
  | nil => exact ⟨[], by simpa using Runs.nil _, rfl, by simp [emitted]⟩
  | cons b chunks ih =>
    have hl := unpadCut_le k m.length
    obtain ⟨o, h1, h2⟩ := unpad_write T k hk (m.drop (unpadCut k m.length)) b
    rw [drop_append_le m b _ hl] at h1 h2
    have hs := unpadCut_step k m.length (m ++ b).length (by simp)
    rw [List.length_drop] at h1 h2
    rw [List.drop_drop, hs] at h1
    obtain ⟨os, r1, r2, r4⟩ := ih (m ++ b)
    refine ⟨o :: os, ?_, by simp [r2], ?_⟩
    · rw [List.flatten_cons, ← List.append_assoc]
      refine .cons ?_ r1
      rw [invoke, src_Unpad_write, h1]
      rfl
    · rintro (_ | i)
      · simp [emitted]
      · rw [List.take_succ_cons, List.take_succ_cons, List.flatten_cons, ← List.append_assoc m b, ← r4 i, emitted, List.map_cons, List.flatten_cons, h2,
          ← List.append_assoc, take_add_drop m b _ _ hl, hs]
        rfl

/-- What an `Unpad` that holds nothing does with one message. It holds nothing afterwards if `flush` is happy. -/
theorem unpad_message (k : Nat) (hk : 1 ≤ k) (hk' : k ≤ 255) (hd : 1 ≤ depth) (chunks : List (List U8)) :
    ∃ (os : List (Option (List U8))) (r : Except UnpadError (List U8)) (left : Unpad),
      Runs T fuel depth (encUnpad ⟨k, []⟩) (unpadCalls chunks) (os.map encOptBytes ++ [encRes encUnpadError bytes r]) (encUnpad left) ∧
      os.length = chunks.length ∧
      (∀ i, emitted (os.take i) = (chunks.take i).flatten.take (k * (((chunks.take i).flatten.length - 1) / k))) ∧
      (chunks.flatten = [] ∨ chunks.flatten.length % k ≠ 0 → r = .error .UnfinishedBlock) ∧
      (∀ v, chunks.flatten.getLast? = some v → chunks.flatten.length % k = 0 →
        (v.toNat ≤ k ∧ (∀ b ∈ chunks.flatten.drop (chunks.flatten.length - v.toNat), b = v) →
          left = ⟨k, []⟩ ∧ ∃ last, r = .ok last ∧ emitted os ++ last = chunks.flatten.take (chunks.flatten.length - v.toNat)) ∧
        (¬(v.toNat ≤ k ∧ (∀ b ∈ chunks.flatten.drop (chunks.flatten.length - v.toNat), b = v)) → r = .error .InvalidPadding)) := by
  obtain ⟨os, r1, r2, r4⟩ := unpad_writes (T := T) (fuel := fuel) k hk hd chunks []
  simp only [List.nil_append, List.drop_nil, List.take_nil] at r1 r4
  have r5 := r4 os.length
  rw [List.take_length, r2, List.take_length] at r5
  have step : ∀ (left : Unpad) (r : Except UnpadError (List U8)),
      Unpad.flush T ⟨k, chunks.flatten.drop (unpadCut k chunks.flatten.length)⟩ = .ok (left, r) →
      Runs T fuel depth (encUnpad ⟨k, []⟩) (unpadCalls chunks) (os.map encOptBytes ++ [encRes encUnpadError bytes r]) (encUnpad left) := by
    intro left r h
    refine r1.append (.cons ?_ (.nil _))
    obtain ⟨d, rfl⟩ := Nat.exists_eq_add_of_le' hd
    rw [invoke, src_Unpad_flush, h]
    rfl
  generalize hm : chunks.flatten = m at *
  have hlen : (m.drop (unpadCut k m.length)).length = m.length - unpadCut k m.length := List.length_drop ..
  by_cases hu : m = [] ∨ m.length % k ≠ 0
  · refine ⟨os, _, _, step _ _ (unpad_flush_unfinished T k _ ?_), r2, r4, fun _ => rfl, ?_⟩
    · rw [hlen, ne_eq, unpad_rest k hk]
      rcases hu with rfl | hu
      · simp
      · exact fun h => hu h.2
    · intro v hv hmod
      rcases hu with rfl | hu
      · cases hv
      · exact absurd hmod hu
  · have hne : m ≠ [] := fun h => hu (.inl h)
    have hmod : m.length % k = 0 := Decidable.byContradiction fun h => hu (.inr h)
    have hpos := List.length_pos_iff.2 hne
    have hv := List.getLast?_eq_some_getLast hne
    generalize m.getLast hne = v at hv
    have hfull : m.length - unpadCut k m.length = k := (unpad_rest k hk _).2 ⟨by omega, hmod⟩
    have hge : unpadCut k m.length + k = m.length := by omega
    have hlast : (m.drop (unpadCut k m.length)).getLast? = some v := by
      rw [List.getLast?_drop, if_neg (by omega), hv]
    obtain ⟨h1, h2⟩ := unpad_flush_full T k hk hk' _ v (hlen.trans hfull) hlast
    have hdrop (hle : v.toNat ≤ k) : (m.drop (unpadCut k m.length)).drop (k - v.toNat) = m.drop (m.length - v.toNat) := by
      rw [List.drop_drop]; congr 1; omega
    by_cases ht : v.toNat ≤ k ∧ (∀ b ∈ m.drop (m.length - v.toNat), b = v)
    · refine ⟨os, _, _, step _ _ (h1 ⟨ht.1, by rw [hdrop ht.1]; exact ht.2⟩), r2, r4, fun h => absurd h hu, ?_⟩
      intro v' hv' _
      obtain rfl : v = v' := Option.some.inj (hv.symm.trans hv')
      refine ⟨fun _ => ⟨rfl, _, rfl, ?_⟩, fun h => absurd ht h⟩
      have hle := ht.1
      rw [r5, show m.length - v.toNat = unpadCut k m.length + (k - v.toNat) by omega, List.take_add]
    · refine ⟨os, _, _, step _ _ (h2 ?_), r2, r4, fun h => absurd h hu, ?_⟩
      · rintro ⟨hle, hall⟩
        rw [hdrop hle] at hall
        exact ht ⟨hle, hall⟩
      · intro v' hv' _
        obtain rfl : v = v' := Option.some.inj (hv.symm.trans hv')
        exact ⟨fun h => absurd h ht, fun _ => rfl⟩

theorem unpad_new (hd : 8 ≤ depth) (k : Nat) (hk : k ≤ 255) {p : Program} (hp : IsProgram Files.lib sources p) {cs : List (Fn × List Val)}
    {vs : List Val} {o : Val} (h : Runs T fuel depth (encUnpad ⟨k, []⟩) cs vs o) :
    sessionIn p T fuel depth (.pkcs7_Unpad_new, [.usize k]) cs = .ok vs := by
  rw [C86_text.2 p hp, sessionIn_crate, session]
  obtain ⟨d, rfl⟩ := Nat.exists_eq_add_of_le' (show 1 ≤ depth by omega)
  rw [src_Unpad_new T fuel d k (by omega)]
  exact h.history

/-- C109: and an `Unpad` with a block size of up to 255, given any bytes in any pieces: the answers to `write` contain all complete blocks except the last, and `flush`
refuses nothing at all and incomplete blocks as unfinished; else, if the last byte `v` is at most the block size and is repeated `v` times, the answers contain
all but these bytes, and if not, `flush` refuses the padding. -/
theorem C109_unpad {p : Program} (hp : IsProgram Files.lib sources p) (T : Target) (fuel depth : Nat) (hd : 8 ≤ depth) (k : Nat) (hk : 1 ≤ k)
    (hk' : k ≤ 255) (chunks : List (List U8)) :
    ∃ (os : List (Option (List U8))) (r : Except UnpadError (List U8)),
      sessionIn p T fuel depth (.pkcs7_Unpad_new, [.usize k]) (unpadCalls chunks) = .ok (os.map encOptBytes ++ [encRes encUnpadError bytes r]) ∧
      os.length = chunks.length ∧
      (∀ i, emitted (os.take i) = (chunks.take i).flatten.take (k * (((chunks.take i).flatten.length - 1) / k))) ∧
      (chunks.flatten = [] ∨ chunks.flatten.length % k ≠ 0 → r = .error .UnfinishedBlock) ∧
      (∀ v, chunks.flatten.getLast? = some v → chunks.flatten.length % k = 0 →
        (v.toNat ≤ k ∧ (∀ b ∈ chunks.flatten.drop (chunks.flatten.length - v.toNat), b = v) →
          ∃ last, r = .ok last ∧ emitted os ++ last = chunks.flatten.take (chunks.flatten.length - v.toNat)) ∧
        (¬(v.toNat ≤ k ∧ (∀ b ∈ chunks.flatten.drop (chunks.flatten.length - v.toNat), b = v)) → r = .error .InvalidPadding)) := by
  obtain ⟨os, r, left, h1, h2, h3, h4, h5⟩ := unpad_message (T := T) (fuel := fuel) k hk hk' (show 1 ≤ depth by omega) chunks
  exact ⟨os, r, unpad_new hd k hk' hp h1, h2, h3, h4, fun v hv hm => ⟨fun ht => ((h5 v hv hm).1 ht).2, (h5 v hv hm).2⟩⟩

/-- C109: so padded messages, one after the other, each cut into any pieces, come back from one `Unpad`. -/
theorem C109_roundtrip {p : Program} (hp : IsProgram Files.lib sources p) (T : Target) (fuel depth : Nat) (hd : 8 ≤ depth) (k : Nat) (hk : 1 ≤ k)
    (hk' : k ≤ 255) (messages : List (List U8 × List (List U8))) (h : ∀ x ∈ messages, x.2.flatten = pkcs7 k x.1) :
    ∃ answers : List (List (Option (List U8)) × List U8),
      sessionIn p T fuel depth (.pkcs7_Unpad_new, [.usize k]) (messages.flatMap fun x => unpadCalls x.2) =
        .ok (answers.flatMap fun a => a.1.map encOptBytes ++ [encRes encUnpadError bytes (.ok a.2)]) ∧
      List.Forall₂ (fun x a => a.1.length = x.2.length ∧ emitted a.1 ++ a.2 = x.1) messages answers := by
  have key : ∃ answers : List (List (Option (List U8)) × List U8),
      Runs T fuel depth (encUnpad ⟨k, []⟩) (messages.flatMap fun x => unpadCalls x.2)
        (answers.flatMap fun a => a.1.map encOptBytes ++ [encRes encUnpadError bytes (.ok a.2)]) (encUnpad ⟨k, []⟩) ∧
      List.Forall₂ (fun x a => a.1.length = x.2.length ∧ emitted a.1 ++ a.2 = x.1) messages answers := by
    induction messages with
    | nil => exact ⟨[], .nil _, .nil⟩
    | cons x messages ih =>
      obtain ⟨answers, h1, h2⟩ := ih fun y hy => h y (by simp [hy])
      obtain ⟨os, r, left, r1, r2, _, _, r5⟩ := unpad_message (T := T) (fuel := fuel) k hk hk' (show 1 ≤ depth by omega) x.2
      obtain ⟨v, f1, f2, f3, f4⟩ := pkcs7_facts k hk hk' x.1
      have hx := h x (by simp)
      have hl : x.2.flatten.length - v.toNat = x.1.length := by rw [hx, f3]; simp
      obtain ⟨rfl, last, rfl, e⟩ := (r5 v (by rw [hx, f3, List.getLast?_append, List.getLast?_replicate, if_neg (by omega)]; rfl) (by rw [hx]; exact f4)).1
        (by
          refine ⟨f2, ?_⟩
          rw [hl, hx, f3, List.drop_left]
          intro b hb
          exact (List.mem_replicate.1 hb).2)
      refine ⟨(os, last) :: answers, r1.append h1, .cons ⟨r2, ?_⟩ h2⟩
      show emitted os ++ last = x.1
      rw [e, hl, hx, f3, List.take_left]
  obtain ⟨answers, h1, h2⟩ := key
  exact ⟨answers, unpad_new hd k hk' hp h1, h2⟩

/-- Two messages in blocks of 4; 5 6 2 2 in two pieces; and the padded messages again, in other pieces. -/
example {p : Program} (hp : IsProgram Files.lib sources p) (T : Target) :=
  And.intro (C109_pad hp T 5 8 (Nat.le_refl 8) 4 (by decide) (by decide) (by decide) [[[1, 2], [3, 4, 5]], [[6]]])
    (And.intro (C109_unpad hp T 0 8 (Nat.le_refl 8) 4 (by decide) (by decide) [[5, 6, 2], [2]])
      (C109_roundtrip hp T 0 8 (Nat.le_refl 8) 4 (by decide) (by decide)
        [([1, 2, 3, 4, 5], [[1], [2, 3, 4, 5, 3, 3, 3]]), ([6], [[6, 3], [3, 3]])] (by decide)))

end Verif.Props.SourcePkcs7
