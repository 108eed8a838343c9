import Verif.Proof.HeapCbc
import Verif.Props.Growing

/-! C105: how much memory a `Cipher` and a `Decipher` take, over any history of calls. The caller reads what a call returns, and drops it. -/

namespace Verif.Props.MemoryCbc
open Verif Verif.Aes Verif.AesCbc Verif.Growing Verif.Heap Spec.Cbc

theorem returns {α : Type} {f : H α} {m : M α} {a : α} {h : Heap} (he : Erases f m) (hm : m = .ok a) : ∃ h', f h = .ok (a, h') := by
  have := he h
  rw [hm] at this
  cases e : f h with
  | error _ => rw [e] at this; cases this
  | ok q =>
    rw [e] at this
    injection this with this
    exact ⟨q.2, by rw [← this]⟩

theorem longest (calls : List Call) : ∃ n, ∀ b, Call.write b ∈ calls → b.length ≤ n := by
  induction calls with
  | nil => exact ⟨0, by simp⟩
  | cons x xs ih =>
    obtain ⟨n, hn⟩ := ih
    cases x with
    | write c =>
      refine ⟨max n c.length, fun b hb => ?_⟩
      rcases List.mem_cons.1 hb with hb | hb
      · cases hb; omega
      · have := hn b hb; omega
    | init key => exact ⟨n, fun b hb => hn b (by simpa using hb)⟩
    | flush => exact ⟨n, fun b hb => hn b (by simpa using hb)⟩

/-- C105: the heap does not change what a `Cipher` does: every history gives the answers of the model with growing vectors (C98). -/
theorem C105_cipher_same (T : Target) (G : Policy) (iv : Vector U8 16) (calls : List Call) (before : Heap) :
    (Heap.csession T G iv calls before).map Prod.fst = Growing.csession T G iv calls :=
  csession_erases T G iv calls before

/-- C105: the same for `Decipher`. -/
theorem C105_decipher_same (T : Target) (G : Policy) (iv : Vector U8 16) (calls : List Call) (before : Heap) :
    (Heap.dsession T G iv calls before).map Prod.fst = Growing.dsession T G iv calls :=
  dsession_erases T G iv calls before

/-- C105: a history of calls on a `Cipher`, with no `write` of more than `n` octets and these within the limit of C98, returns the answers of the abstract
machine. What is on the heap between the calls is at most `2 * n + 272` bytes, and at any time it is at most `4 * n + 512`, however many calls there
are. It keeps room for the longest `write`. -/
theorem C105_cipher (T : Target) (G : Policy) (iv : Vector U8 16) (calls : List Call) (n : Nat) (hn : ∀ b, Call.write b ∈ calls → b.length ≤ n)
    (hlim : n + 15 ≤ 2 ^ (T.bits - 2)) (L : Int) :
    ∃ c rs after, Heap.csession T G iv calls ⟨L, L⟩ = .ok ((c, rs), after) ∧
      rs.map (·.mapError errA) = (Enc.run ⟨none, iv.toList, []⟩ calls).2 ∧
      after.live ≤ L + 2 * n + 272 ∧ after.peak ≤ L + 4 * n + 512 ∧ ∀ b, Call.write b ∈ calls → L + b.length ≤ after.live := by
  obtain ⟨c, rs, h1, h2⟩ := Growing.C98_cipher_each T G iv calls (fun b hb => by have := hn b hb; omega)
  obtain ⟨after, h3⟩ := returns (h := ⟨L, L⟩) (csession_erases T G iv calls) h1
  obtain ⟨k1, k2, k3⟩ := csession_heap T G n iv calls hn L _ _ h3
  refine ⟨c, rs, after, h3, h2, ?_, k3, ?_⟩
  · have := k1.keys
    have := k1.cap
    have : after.live = L + ((keyBytes c.aes + c.pad.storage.cap : Nat) : Int) := k2
    dsimp only at *
    omega
  · intro b hb
    have := (Growing.C98_cipher_room T G iv calls c rs h1).1 b hb
    have : after.live = L + ((keyBytes c.aes + c.pad.storage.cap : Nat) : Int) := k2
    omega

/-- C105: when the `Cipher` is dropped after any history of calls, everything is given back. -/
theorem C105_cipher_dropped (T : Target) (G : Policy) (iv : Vector U8 16) (calls : List Call) (L : Int) (rs : List (Except AESError (List U8)))
    (after : Heap) (h : (do
      let (c, rs) ← Heap.csession T G iv calls
      Heap.Cipher.drop c
      return rs : H (List (Except AESError (List U8)))) ⟨L, L⟩ = .ok (rs, after)) : after.live = L := by
  obtain ⟨n, hn⟩ := longest calls
  have key : Post ((do
      let (c, rs) ← Heap.csession T G iv calls
      Heap.Cipher.drop c
      return rs : H (List (Except AESError (List U8)))) ⟨L, L⟩) fun _ h => h.live = L := by
    refine Post.bind (csession_heap T G n iv calls hn L) ?_
    rintro ⟨c, rs⟩ ⟨L', P'⟩ ⟨_, k2, _⟩
    change L' = L + ((keyBytes c.aes + c.pad.storage.cap : Nat) : Int) at k2
    intro a h e
    cases e
    show L' - keyBytes c.aes - c.pad.storage.cap = L
    omega
  exact key _ _ h

/-- A piece of 4096 octets, another one, and the end: what is live after that is what was live before. -/
example (T : Target) (iv : Vector U8 16) (key b b' : List U8) (hb : b.length = 4096) (hb' : b'.length ≤ 4096) :
    ∃ rs after, (do
      let (c, rs) ← Heap.csession T std iv [.init key, .write b, .write b', .flush]
      Heap.Cipher.drop c
      return rs : H (List (Except AESError (List U8)))) ⟨5, 5⟩ = .ok (rs, after) ∧ after.live = 5 := by
  obtain ⟨c, rs, after, h, _⟩ := C105_cipher T std iv [.init key, .write b, .write b', .flush] 4096 (by
    intro x hx
    simp only [List.mem_cons, reduceCtorEq, Call.write.injEq, false_or, List.not_mem_nil, or_false] at hx
    rcases hx with rfl | rfl <;> omega) (by rcases T with ⟨_ | _, _ | _⟩ <;> decide) 5
  have h' : (do
      let (c, rs) ← Heap.csession T std iv [.init key, .write b, .write b', .flush]
      Heap.Cipher.drop c
      return rs : H (List (Except AESError (List U8)))) ⟨5, 5⟩ =
      .ok (rs, ⟨after.live - keyBytes c.aes - c.pad.storage.cap, after.peak⟩) := by
    show (Heap.csession T std iv [.init key, .write b, .write b', .flush] ⟨5, 5⟩ >>= _) = _
    rw [h]
    rfl
  exact ⟨rs, _, h', C105_cipher_dropped T std iv _ 5 rs _ h'⟩

/-- C105: the same for a `Decipher`, which keeps two vectors: at most `4 * n + 334` bytes between the calls, and `7 * n + 576` at any time. -/
theorem C105_decipher (T : Target) (G : Policy) (iv : Vector U8 16) (calls : List Call) (n : Nat) (hn : ∀ b, Call.write b ∈ calls → b.length ≤ n)
    (hlim : n + 16 ≤ 2 ^ (T.bits - 2)) (L : Int) :
    ∃ d rs after, Heap.dsession T G iv calls ⟨L, L⟩ = .ok ((d, rs), after) ∧
      rs.map (·.mapError errD) = (Dec.run ⟨none, iv.toList, [], []⟩ calls).2 ∧
      after.live ≤ L + 4 * n + 334 ∧ after.peak ≤ L + 7 * n + 576 ∧ ∀ b, Call.write b ∈ calls → L + b.length ≤ after.live := by
  obtain ⟨d, rs, h1, h2⟩ := Growing.C98_decipher_each T G iv calls (fun b hb => by have := hn b hb; omega)
  obtain ⟨after, h3⟩ := returns (h := ⟨L, L⟩) (dsession_erases T G iv calls) h1
  obtain ⟨k1, k2, k3⟩ := dsession_heap T G n iv calls hn L _ _ h3
  refine ⟨d, rs, after, h3, h2, ?_, k3, ?_⟩
  · have := k1.keys
    have := k1.cap
    have := k1.cap'
    have : after.live = L + ((keyBytes d.aes + d.buffer.storage.cap + d.unpad.storage.cap : Nat) : Int) := k2
    dsimp only at *
    omega
  · intro b hb
    have := (Growing.C98_decipher_room T G iv calls d rs h1).1 b hb
    have : after.live = L + ((keyBytes d.aes + d.buffer.storage.cap + d.unpad.storage.cap : Nat) : Int) := k2
    omega

/-- C105: and it gives everything back. -/
theorem C105_decipher_dropped (T : Target) (G : Policy) (iv : Vector U8 16) (calls : List Call) (L : Int) (rs : List (Except DecipherError (List U8)))
    (after : Heap) (h : (do
      let (d, rs) ← Heap.dsession T G iv calls
      Heap.Decipher.drop d
      return rs : H (List (Except DecipherError (List U8)))) ⟨L, L⟩ = .ok (rs, after)) : after.live = L := by
  obtain ⟨n, hn⟩ := longest calls
  have key : Post ((do
      let (d, rs) ← Heap.dsession T G iv calls
      Heap.Decipher.drop d
      return rs : H (List (Except DecipherError (List U8)))) ⟨L, L⟩) fun _ h => h.live = L := by
    refine Post.bind (dsession_heap T G n iv calls hn L) ?_
    rintro ⟨d, rs⟩ ⟨L', P'⟩ ⟨_, k2, _⟩
    change L' = L + ((keyBytes d.aes + d.buffer.storage.cap + d.unpad.storage.cap : Nat) : Int) at k2
    intro a h e
    cases e
    show L' - keyBytes d.aes - d.unpad.storage.cap - d.buffer.storage.cap = L
    omega
  exact key _ _ h

/-- A piece of 4096 octets, another one, and the end: what is live at the end is what was live before. -/
example (T : Target) (iv : Vector U8 16) (key b b' : List U8) (hb : b.length = 4096) (hb' : b'.length ≤ 4096) :
    ∃ rs after, (do
      let (d, rs) ← Heap.dsession T std iv [.init key, .write b, .write b', .flush]
      Heap.Decipher.drop d
      return rs : H (List (Except DecipherError (List U8)))) ⟨5, 5⟩ = .ok (rs, after) ∧ after.live = 5 := by
  obtain ⟨d, rs, after, h, _⟩ := C105_decipher T std iv [.init key, .write b, .write b', .flush] 4096 (by
    intro x hx
    simp only [List.mem_cons, reduceCtorEq, Call.write.injEq, false_or, List.not_mem_nil, or_false] at hx
    rcases hx with rfl | rfl <;> omega) (by rcases T with ⟨_ | _, _ | _⟩ <;> decide) 5
  have h' : (do
      let (d, rs) ← Heap.dsession T std iv [.init key, .write b, .write b', .flush]
      Heap.Decipher.drop d
      return rs : H (List (Except DecipherError (List U8)))) ⟨5, 5⟩ =
      .ok (rs, ⟨after.live - keyBytes d.aes - d.unpad.storage.cap - d.buffer.storage.cap, after.peak⟩) := by
    show (Heap.dsession T std iv [.init key, .write b, .write b', .flush] ⟨5, 5⟩ >>= _) = _
    rw [h]
    rfl
  exact ⟨rs, _, h', C105_decipher_dropped T std iv _ 5 rs _ h'⟩

/-- A million megabytes in pieces of 4096 octets, on any target: never more than 17 kilobytes. -/
example (T : Target) (iv : Vector U8 16) (key : List U8) (piece : Nat → List U8) (hp : ∀ i, (piece i).length = 4096) :
    ∃ c rs after, Heap.csession T std iv (.init key :: (List.range 256000000).map (fun i => .write (piece i)) ++ [.flush]) ⟨0, 0⟩ = .ok ((c, rs), after) ∧
      after.peak ≤ 16896 := by
  obtain ⟨c, rs, after, h1, _, _, h2, _⟩ := C105_cipher T std iv (.init key :: (List.range 256000000).map (fun i => .write (piece i)) ++ [.flush]) 4096 (by
    intro b hb
    simp only [List.mem_append, List.mem_cons, List.mem_map, reduceCtorEq, false_or, List.not_mem_nil, or_false] at hb
    obtain ⟨i, _, hi⟩ := hb
    cases hi
    exact Nat.le_of_eq (hp i)) (by rcases T with ⟨_ | _, _⟩ <;> (simp only [Target.bits]; decide)) 0
  exact ⟨c, rs, after, h1, by omega⟩

end Verif.Props.MemoryCbc
