import Verif.Props.Aes
import Verif.Spec.TwoKeys

/-! Property C126: a block that is encrypted twice, with two keys. -/

namespace Verif.Props.TwoKeys
open Verif Verif.Aes Verif.Props.Aes Spec.Aes

/-- `AES::new()`, `init` with the key, and `encrypt` or `decrypt`. -/
def once (T : Target) (op : AES → Vector U8 16 → M (Except AESError (Vector U8 16))) (key : List U8) (b : Vector U8 16) :
    M (Except AESError (Vector U8 16)) := do
  let (aes, r) ← AES.new.init T key
  match r with
  | .error e => return .error e
  | .ok () => op aes b

/-- What comes of a strategy, and how many blocks were encrypted or decrypted. -/
def exec {α : Type} (T : Target) : Plan α → M (Except AESError (α × Nat))
  | .done a => return .ok (a, 0)
  | .encrypt key b next => do
    match ← once T AES.encrypt key b with
    | .error e => return .error e
    | .ok x => do
      match ← exec T (next x) with
      | .error e => return .error e
      | .ok (a, n) => return .ok (a, n + 1)
  | .decrypt key b next => do
    match ← once T AES.decrypt key b with
    | .error e => return .error e
    | .ok x => do
      match ← exec T (next x) with
      | .error e => return .error e
      | .ok (a, n) => return .ok (a, n + 1)

/-- A key of one of the three sizes. -/
def Valid (key : List U8) : Prop := key.length = 16 ∨ key.length = 24 ∨ key.length = 32

/-- What AES with a key does. -/
theorem once_perm (T : Target) (key : List U8) (hk : Valid key) :
    ∃ f g : Vector U8 16 → Vector U8 16, (∀ b, once T AES.encrypt key b = .ok (.ok (f b))) ∧ (∀ b, once T AES.decrypt key b = .ok (.ok (g b))) ∧
      (∀ b, g (f b) = b) ∧ ∀ b, f (g b) = b := by
  obtain ⟨aes, h1, h2⟩ := init_valid T AES.new key hk
  have e (op : AES → Vector U8 16 → M (Except AESError (Vector U8 16))) (b : Vector U8 16) : once T op key b = op aes b := by
    rw [once, h1]
    rfl
  obtain ⟨f, hf⟩ := Classical.axiomOfChoice fun b => h2.dec_enc b
  obtain ⟨g, hg⟩ := Classical.axiomOfChoice fun b => h2.enc_dec b
  refine ⟨f, g, fun b => (e _ b).trans (hf b).1, fun b => (e _ b).trans (hg b).1, fun b => ?_, fun b => ?_⟩
  · exact Except.ok.inj (Except.ok.inj ((hg (f b)).1.symm.trans (hf b).2))
  · exact Except.ok.inj (Except.ok.inj ((hf (g b)).1.symm.trans (hg b).2))

theorem exec_encryptAll {α : Type} (T : Target) (b : Vector U8 16) (keys : List (List U8)) (hk : ∀ k ∈ keys, Valid k)
    (next : List (List U8 × Vector U8 16) → Plan α) :
    ∃ table : List (List U8 × Vector U8 16), (∀ k x, (k, x) ∈ table ↔ k ∈ keys ∧ once T AES.encrypt k b = .ok (.ok x)) ∧
      ∀ a n, exec T (next table) = .ok (.ok (a, n)) → exec T (encryptAll b keys next) = .ok (.ok (a, keys.length + n)) := by
  induction keys generalizing next with
  | nil => exact ⟨[], by simp, fun a n h => by simpa [encryptAll] using h⟩
  | cons key keys ih =>
    obtain ⟨f, g, hf, -, -, -⟩ := once_perm T key (hk key (by simp))
    obtain ⟨table, h1, h2⟩ := ih (fun k h => hk k (by simp [h])) fun table => next ((key, f b) :: table)
    refine ⟨(key, f b) :: table, fun k x => ?_, fun a n h => ?_⟩
    · rw [List.mem_cons, h1, List.mem_cons, Prod.mk.injEq]
      constructor
      · rintro (⟨rfl, rfl⟩ | ⟨h, h'⟩)
        · exact ⟨.inl rfl, hf b⟩
        · exact ⟨.inr h, h'⟩
      · rintro ⟨rfl | h, h'⟩
        · rw [hf] at h'
          exact .inl ⟨rfl, (Except.ok.inj (Except.ok.inj h')).symm⟩
        · exact .inr ⟨h, h'⟩
    · have := h2 a n h
      rw [encryptAll, exec, hf]
      simp only [bind, Except.bind, this, List.length_cons]
      rw [Nat.add_right_comm]
      rfl

theorem exec_decryptAll {α : Type} (T : Target) (b : Vector U8 16) (keys : List (List U8)) (hk : ∀ k ∈ keys, Valid k)
    (next : List (List U8 × Vector U8 16) → Plan α) :
    ∃ table : List (List U8 × Vector U8 16), (∀ k x, (k, x) ∈ table ↔ k ∈ keys ∧ once T AES.encrypt k x = .ok (.ok b)) ∧
      ∀ a n, exec T (next table) = .ok (.ok (a, n)) → exec T (decryptAll b keys next) = .ok (.ok (a, keys.length + n)) := by
  induction keys generalizing next with
  | nil => exact ⟨[], by simp, fun a n h => by simpa [decryptAll] using h⟩
  | cons key keys ih =>
    obtain ⟨f, g, hf, hg, hgf, hfg⟩ := once_perm T key (hk key (by simp))
    obtain ⟨table, h1, h2⟩ := ih (fun k h => hk k (by simp [h])) fun table => next ((key, g b) :: table)
    refine ⟨(key, g b) :: table, fun k x => ?_, fun a n h => ?_⟩
    · rw [List.mem_cons, h1, List.mem_cons, Prod.mk.injEq]
      constructor
      · rintro (⟨rfl, rfl⟩ | ⟨h, h'⟩)
        · exact ⟨.inl rfl, by rw [hf, hfg]⟩
        · exact ⟨.inr h, h'⟩
      · rintro ⟨rfl | h, h'⟩
        · rw [hf] at h'
          exact .inl ⟨rfl, by rw [← Except.ok.inj (Except.ok.inj h'), hgf]⟩
        · exact .inr ⟨h, h'⟩
    · have := h2 a n h
      rw [decryptAll, exec, hg]
      simp only [bind, Except.bind, this, List.length_cons]
      rw [Nat.add_right_comm]
      rfl

/-- **C126.** A block `p` was encrypted with one key and the result with another, which gave `c`. Of the keys that are possible for the first
and for the second step, `meet` finds exactly the pairs that lead from `p` to `c`. It encrypts or decrypts one block for every key: the numbers
of the keys are added, not multiplied. -/
theorem C126_meet (T : Target) (keys₁ keys₂ : List (List U8)) (h₁ : ∀ k ∈ keys₁, Valid k) (h₂ : ∀ k ∈ keys₂, Valid k) (p c : Vector U8 16) :
    ∃ pairs : List (List U8 × List U8), exec T (meet keys₁ keys₂ p c) = .ok (.ok (pairs, keys₁.length + keys₂.length)) ∧
      ∀ k₁ k₂, (k₁, k₂) ∈ pairs ↔
        k₁ ∈ keys₁ ∧ k₂ ∈ keys₂ ∧ ∃ x, once T AES.encrypt k₁ p = .ok (.ok x) ∧ once T AES.encrypt k₂ x = .ok (.ok c) := by
  obtain ⟨first, f1, f2⟩ := exec_encryptAll T p keys₁ h₁ fun first => decryptAll c keys₂ fun second =>
    .done (first.flatMap fun e => (second.filter fun e' => e'.2 = e.2).map fun e' => (e.1, e'.1))
  obtain ⟨second, s1, s2⟩ := exec_decryptAll T c keys₂ h₂ fun second =>
    .done (first.flatMap fun e => (second.filter fun e' => e'.2 = e.2).map fun e' => (e.1, e'.1))
  refine ⟨_, f2 _ _ (s2 _ _ rfl), fun k₁ k₂ => ?_⟩
  simp only [List.mem_flatMap, List.mem_map, List.mem_filter, decide_eq_true_eq, Prod.mk.injEq]
  constructor
  · rintro ⟨⟨k, x⟩, h, ⟨k', x'⟩, ⟨h', rfl⟩, rfl, rfl⟩
    rw [f1] at h
    rw [s1] at h'
    exact ⟨h.1, h'.1, x', h.2, h'.2⟩
  · rintro ⟨h, h', x, e, e'⟩
    exact ⟨(k₁, x), (f1 _ _).2 ⟨h, e⟩, (k₂, x), ⟨(s1 _ _).2 ⟨h', e'⟩, rfl⟩, rfl, rfl⟩

/-- The two keys that were used are among those that are found. -/
example (T : Target) (p : Vector U8 16) : ∃ x c : Vector U8 16, once T AES.encrypt (List.replicate 16 1) p = .ok (.ok x) ∧
    once T AES.encrypt (List.replicate 32 2) x = .ok (.ok c) ∧
    ∃ pairs, exec T (meet [List.replicate 16 1, List.replicate 24 3] [List.replicate 16 4, List.replicate 32 2] p c) = .ok (.ok (pairs, 4)) ∧
      (List.replicate 16 1, List.replicate 32 2) ∈ pairs := by
  obtain ⟨f, _, hf, _⟩ := once_perm T (List.replicate 16 1) (.inl rfl)
  obtain ⟨f', _, hf', _⟩ := once_perm T (List.replicate 32 2) (.inr (.inr rfl))
  obtain ⟨pairs, h1, h2⟩ := C126_meet T [List.replicate 16 1, List.replicate 24 3] [List.replicate 16 4, List.replicate 32 2]
    (by simp [Valid]) (by simp [Valid]) p (f' (f p))
  exact ⟨f p, f' (f p), hf p, hf' _, pairs, h1, (h2 _ _).2 ⟨by simp, by simp, f p, hf p, hf' _⟩⟩

end Verif.Props.TwoKeys
