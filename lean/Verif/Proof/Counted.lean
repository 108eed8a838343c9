import Verif.Proof.Mono
import Verif.Model.Counted

/-! Erasure and exact counts of the counted models. -/

namespace Verif.Counted
open Verif Verif.Sha256 Verif.Hmac Verif.Pbkdf2 Verif.Scrypt

/-- `x` behaves like `m` and, when it returns, has made `c` counted calls. -/
def Costs {α : Type} (x : C α) (m : M α) (c : Nat) : Prop := ∀ k, x k = m.map fun a => (a, k + c)

namespace Costs

theorem free {α : Type} (m : M α) : Costs (Counted.free m) m 0 := fun _ => rfl

theorem ret {α : Type} (a : α) : Costs (pure a) (pure a) 0 := fun _ => rfl

theorem tick : Costs tick (pure ()) 1 := fun _ => rfl

theorem of_eq {α : Type} {x : C α} {m : M α} {c d : Nat} (h : Costs x m c) (e : c = d) : Costs x m d := e ▸ h

theorem bind {α β : Type} {x : C α} {m : M α} {f : α → C β} {g : α → M β} {c d : Nat} (h : Costs x m c)
    (hf : ∀ a, m = .ok a → Costs (f a) (g a) d) : Costs (x >>= f) (m >>= g) (c + d) := by
  intro k
  show ((x k) >>= fun p => f p.1 p.2) = _
  rw [h k]
  cases hm : m with
  | error e => rfl
  | ok a =>
    show f a (k + c) = (g a).map _
    rw [hf a hm (k + c), Nat.add_assoc]

theorem bind' {α β : Type} {x : C α} {m : M α} {f : α → C β} {g : α → M β} {c d : Nat} (h : Costs x m c)
    (hf : ∀ a, Costs (f a) (g a) d) : Costs (x >>= f) (m >>= g) (c + d) := h.bind fun a _ => hf a

theorem bind0 {α β : Type} {x : C α} {m : M α} {f : α → C β} {g : α → M β} {d : Nat} (h : Costs x m 0)
    (hf : ∀ a, m = .ok a → Costs (f a) (g a) d) : Costs (x >>= f) (m >>= g) d := (h.bind hf).of_eq (Nat.zero_add _)

theorem forEach {α σ : Type} (xs : List α) {body : α → σ → C σ} {body' : α → σ → M σ} {c : Nat} (I : σ → Prop)
    (h : ∀ x s, I s → Costs (body x s) (body' x s) c ∧ ∀ s', body' x s = .ok s' → I s') (s : σ) (hs : I s) :
    Costs (Counted.forEach xs s body) (Verif.forEach xs s body') (xs.length * c) ∧
      ∀ s', Verif.forEach xs s body' = .ok s' → I s' := by
  induction xs generalizing s with
  | nil => exact ⟨(ret s).of_eq (Nat.zero_mul _).symm, fun s' e => by cases e; exact hs⟩
  | cons x xs ih =>
    obtain ⟨h1, h2⟩ := h x s hs
    rw [forEach_cons]
    refine ⟨?_, ?_⟩
    · refine (h1.bind fun s1 e => (ih s1 (h2 s1 e)).1).of_eq ?_
      rw [List.length_cons, Nat.succ_mul, Nat.add_comm]
    · intro s' e
      cases hb : body' x s with
      | error er => rw [hb] at e; cases e
      | ok s1 =>
        rw [hb] at e
        exact (ih s1 (h2 s1 hb)).2 s' e

theorem forRange {σ : Type} (lo hi : Nat) {body : Nat → σ → C σ} {body' : Nat → σ → M σ} {c : Nat} (I : σ → Prop)
    (h : ∀ x s, I s → Costs (body x s) (body' x s) c ∧ ∀ s', body' x s = .ok s' → I s') (s : σ) (hs : I s) :
    Costs (Counted.forRange lo hi s body) (Verif.forRange lo hi s body') ((hi - lo) * c) ∧
      ∀ s', Verif.forRange lo hi s body' = .ok s' → I s' := by
  have := forEach (List.range' lo (hi - lo)) I h s hs
  rw [List.length_range'] at this
  exact this

theorem mapM {α β : Type} (xs : List α) {f : α → C β} {g : α → M β} {c : Nat} (h : ∀ x ∈ xs, Costs (f x) (g x) c) :
    Costs (xs.mapM f) (xs.mapM g) (xs.length * c) := by
  induction xs with
  | nil => exact (ret []).of_eq (Nat.zero_mul _).symm
  | cons x xs ih =>
    rw [List.mapM_cons, List.mapM_cons]
    refine ((h x (by simp)).bind' fun _ => (ih fun y hy => h y (by simp [hy])).bind' fun _ => ret _).of_eq ?_
    rw [List.length_cons, Nat.succ_mul, Nat.add_comm, Nat.add_zero]

end Costs

/-! ### SHA-256 -/

theorem tick_free {α : Type} (m : M α) : Costs (do tick; Counted.free m) m 1 := fun _ => rfl

theorem costs_process (s : SHA256) (b : Vector U32 16) : Costs (process_block s b) (s.process_block b) 1 := by
  unfold process_block
  exact tick_free _

theorem process_length (s s' : SHA256) (b : Vector U32 16) (h : s.process_block b = .ok s') : s'.length = s.length := by
  unfold SHA256.process_block at h
  cases h1 : SHA256.schedule b with
  | error e => rw [h1, error_bind] at h; cases h
  | ok w =>
    rw [h1, ok_bind] at h
    generalize SHA256.rounds w _ = q at h
    cases q with
    | error e => rw [error_bind] at h; cases h
    | ok r =>
      rw [ok_bind, pure_eq_ok] at h
      injection h with h
      rw [← h]

theorem add_mod64 (T : Target) (a b l : Nat) (h : T.add a b = .ok l) : l % 64 = (a + b) % 64 := by
  unfold Target.add at h
  split at h
  · injection h with h; rw [h]
  · split at h
    · cases h
    · injection h with h
      rw [← h]
      rcases T.bits_cases with e | e <;> rw [e] <;> omega

theorem costs_updateByte (T : Target) (b : U8) (st : SHA256 × Vector U32 16) :
    Costs (updateByte T b st) (SHA256.updateByte T b st) ((st.1.length % 64 + 1) / 64) ∧
      ∀ st', SHA256.updateByte T b st = .ok st' → st'.1.length % 64 = (st.1.length + 1) % 64 := by
  obtain ⟨s, blk⟩ := st
  have hlt : s.length % 64 < 64 := Nat.mod_lt _ (by decide)
  constructor
  · unfold updateByte SHA256.updateByte
    refine (Costs.free _).bind0 fun buf _ => (Costs.free _).bind0 fun l hl => ?_
    have hl := add_mod64 T _ _ _ hl
    dsimp only
    split
    · rename_i hne
      refine (Costs.ret _).of_eq ?_
      change l % 64 ≠ 0 at hne
      omega
    · rename_i heq
      refine (Costs.free _).bind0 fun _ _ => ((costs_process _ _).bind' fun _ => Costs.ret _).of_eq ?_
      change ¬ l % 64 ≠ 0 at heq
      omega
  · intro st' h
    unfold SHA256.updateByte at h
    cases h1 : vupd s.buffer (s.length % Sha256.BLOCK_SIZE) b with
    | error e => simp only [h1, error_bind] at h; cases h
    | ok buf =>
      simp only [h1, ok_bind] at h
      cases h2 : T.add s.length 1 with
      | error e => rw [h2, error_bind] at h; cases h
      | ok l =>
        rw [h2, ok_bind] at h
        have hl := add_mod64 T _ _ _ h2
        split at h
        · rw [pure_eq_ok] at h
          injection h with h
          rw [← h]
          exact hl
        · generalize fill_block buf blk = q at h
          cases q with
          | error e => rw [error_bind] at h; cases h
          | ok blk' =>
            rw [ok_bind] at h
            cases h3 : SHA256.process_block { s with buffer := buf, length := l } blk' with
            | error e => rw [h3, error_bind] at h; cases h
            | ok s' =>
              rw [h3, ok_bind, pure_eq_ok] at h
              injection h with h
              rw [← h]
              show s'.length % 64 = _
              rw [process_length _ _ _ h3]
              exact hl

theorem costs_updateLoop (T : Target) (data : List U8) (st : SHA256 × Vector U32 16) :
    Costs (forEach data st (updateByte T)) (Verif.forEach data st (SHA256.updateByte T))
      ((st.1.length % 64 + data.length) / 64) ∧
      ∀ st', Verif.forEach data st (SHA256.updateByte T) = .ok st' → st'.1.length % 64 = (st.1.length + data.length) % 64 := by
  induction data generalizing st with
  | nil =>
    have hlt : st.1.length % 64 < 64 := Nat.mod_lt _ (by decide)
    exact ⟨(Costs.ret _).of_eq (by rw [List.length_nil]; omega), fun st' h => by cases h; rfl⟩
  | cons b data ih =>
    obtain ⟨h1, h2⟩ := costs_updateByte T b st
    have hlt : st.1.length % 64 < 64 := Nat.mod_lt _ (by decide)
    rw [forEach_cons]
    constructor
    · refine (h1.bind (d := ((st.1.length + 1) % 64 + data.length) / 64) fun st1 e => ?_).of_eq ?_
      · exact (ih st1).1.of_eq (by rw [h2 st1 e])
      · rw [List.length_cons]
        omega
    · intro st' h
      cases hb : SHA256.updateByte T b st with
      | error e => rw [hb, error_bind] at h; cases h
      | ok st1 =>
        rw [hb, ok_bind] at h
        have := (ih st1).2 st' h
        have := h2 st1 hb
        rw [List.length_cons]
        omega

theorem costs_update (T : Target) (s : SHA256) (data : List U8) :
    Costs (update T s data) (s.update T data) ((s.length % 64 + data.length) / 64) ∧
      ∀ s', s.update T data = .ok s' → s'.length % 64 = (s.length + data.length) % 64 := by
  obtain ⟨h1, h2⟩ := costs_updateLoop T data (s, Vector.replicate 16 0)
  constructor
  · unfold update SHA256.update
    exact (h1.bind' fun _ => Costs.ret _).of_eq rfl
  · intro s' h
    unfold SHA256.update at h
    cases hq : Verif.forEach data (s, Vector.replicate 16 (0 : U32)) (SHA256.updateByte T) with
    | error e => rw [hq, error_bind] at h; cases h
    | ok st =>
      rw [hq, ok_bind] at h
      cases h
      exact h2 st hq

theorem costs_digest (T : Target) (s : SHA256) :
    Costs (digest T s) (s.digest T) ((s.length % 64 + 8) / 64 + 1) := by
  have hlt : s.length % 64 < 64 := Nat.mod_lt _ (by decide)
  unfold digest SHA256.digest
  refine (Costs.free _).bind0 fun _ _ => ?_
  refine ((Costs.bind (c := (s.length % 64 + 8) / 64) (d := 1) ?_ fun q _ => ?_))
  · dsimp only
    split
    · rename_i h
      change s.length % 64 + 9 > 64 at h
      refine ((Costs.free _).bind0 fun _ _ => (Costs.free _).bind0 fun _ _ => (Costs.free _).bind0 fun _ _ =>
        (costs_process _ _).bind' fun _ => Costs.ret _).of_eq ?_
      omega
    · rename_i h
      change ¬ s.length % 64 + 9 > 64 at h
      refine (Costs.ret _).of_eq ?_
      omega
  · exact (Costs.free _).bind0 fun _ _ => (Costs.free _).bind0 fun _ _ => (Costs.free _).bind0 fun _ _ =>
      (Costs.free _).bind0 fun _ _ => (costs_process _ _).bind' fun _ => (Costs.free _).bind0 fun _ _ => Costs.ret _

/-! ### HMAC -/

/-- Compressions spent on turning the key into a block. -/
def keyCost (key : List U8) : Nat := if key.length > 64 then (key.length + 8) / 64 + 1 else 0

/-- An `HMac` whose outer hash has absorbed whole blocks only, and the inner one `m` bytes after its last whole block. -/
def Aligned (h : HMac) (m : Nat) : Prop := h.inner.length % 64 = m % 64 ∧ h.outer.length % 64 = 0

theorem bind_ok {α β : Type} {m : M α} {f : α → M β} {y : β} (h : m >>= f = .ok y) : ∃ a, m = .ok a ∧ f a = .ok y := by
  cases m with
  | error e => cases h
  | ok a => exact ⟨a, rfl, h⟩

theorem costs_newShort (T : Target) (key : List U8) :
    Costs (hmacNewShort T key) (HMac.newShort T key) 2 ∧ ∀ h, HMac.newShort T key = .ok h → Aligned h 0 := by
  have hlen : ∀ block, copyFromSlice (List.replicate Sha256.BLOCK_SIZE (0 : U8)) 0 key.length key = .ok block →
      block.length = 64 := by
    intro block h
    unfold copyFromSlice at h
    split at h
    · split at h
      · rename_i h1 h2
        injection h with h
        rw [← h]
        rw [List.length_replicate] at h1
        simp only [List.take_zero, List.nil_append, List.length_append, List.length_drop, List.length_replicate]
        change _ + (64 - _) = 64
        have : key.length ≤ 64 := h1.2
        omega
      · cases h
    · cases h
  constructor
  · unfold hmacNewShort HMac.newShort
    refine (Costs.free _).bind0 fun block hb => ?_
    have hl := hlen block hb
    refine ((costs_update T _ _).1.bind' fun _ => (costs_update T _ _).1.bind' fun _ => Costs.ret _).of_eq ?_
    rw [List.length_map, List.length_map, List.length_map, hl]
    rfl
  · intro h e
    unfold HMac.newShort at e
    obtain ⟨block, hb, e⟩ := bind_ok e
    obtain ⟨i, hi, e⟩ := bind_ok e
    obtain ⟨o, ho, e⟩ := bind_ok e
    have hl := hlen block hb
    have h1 := (costs_update T _ _).2 _ hi
    have h2 := (costs_update T _ _).2 _ ho
    rw [List.length_map, hl] at h1
    rw [List.length_map, List.length_map, hl] at h2
    cases e
    exact ⟨h1, h2⟩

theorem costs_hmacNew (T : Target) (key : List U8) :
    Costs (hmacNew T key) (HMac.new T key) (2 + keyCost key) ∧ ∀ h, HMac.new T key = .ok h → Aligned h 0 := by
  constructor
  · unfold hmacNew HMac.new
    split
    · rename_i hk
      change key.length > 64 at hk
      refine ((costs_update T _ _).1.bind (d := (key.length % 64 + 8) / 64 + 1 + 2) fun s hs => ?_).of_eq ?_
      · refine ((costs_digest T s).bind' fun q => (costs_newShort T _).1).of_eq ?_
        rw [(costs_update T _ _).2 s hs]
        show ((0 + key.length) % 64 + 8) / 64 + 1 + 2 = _
        rw [Nat.zero_add]
      · rw [keyCost, if_pos hk]
        show (0 + key.length) / 64 + _ = _
        omega
    · rename_i hk
      change ¬ key.length > 64 at hk
      refine (costs_newShort T key).1.of_eq ?_
      rw [keyCost, if_neg hk]
  · intro h e
    unfold HMac.new at e
    split at e
    · obtain ⟨s, _, e⟩ := bind_ok e
      obtain ⟨d, _, e⟩ := bind_ok e
      exact (costs_newShort T _).2 h e
    · exact (costs_newShort T _).2 h e

theorem costs_hmacUpdate (T : Target) (h : HMac) (m : Nat) (hm : Aligned h m) (data : List U8) :
    Costs (hmacUpdate T h data) (h.update T data) ((m % 64 + data.length) / 64) ∧
      ∀ h', h.update T data = .ok h' → Aligned h' (m + data.length) := by
  obtain ⟨h1, h2⟩ := costs_update T h.inner data
  constructor
  · unfold hmacUpdate HMac.update
    refine (h1.bind' fun _ => Costs.ret _).of_eq ?_
    rw [hm.1]
    rfl
  · intro h' e
    unfold HMac.update at e
    obtain ⟨i, hi, e⟩ := bind_ok e
    cases e
    have := h2 i hi
    have := hm.1
    exact ⟨by show i.length % 64 = _; omega, hm.2⟩

theorem digest_length (T : Target) (s s' : SHA256) (d : Vector U8 32) (_ : s.digest T = .ok (s', d)) :
    d.toList.length = 32 := by simp

theorem costs_hmacDigest (T : Target) (h : HMac) (m : Nat) (hm : Aligned h m) :
    Costs (hmacDigest T h) (h.digest T) ((m % 64 + 8) / 64 + 2) := by
  unfold hmacDigest HMac.digest
  refine ((costs_digest T h.inner).bind' (d := 1) fun q => ?_).of_eq (by rw [hm.1])
  refine ((costs_update T h.outer _).1.bind (d := 1) fun o ho => ?_).of_eq ?_
  · refine ((costs_digest T o).bind' fun _ => Costs.ret _).of_eq ?_
    rw [(costs_update T _ _).2 o ho, Vector.length_toList, Nat.add_mod, hm.2]
  · rw [hm.2, Vector.length_toList]

/-- The compressions of a whole HMAC of a message given in one `update`. -/
def macCost (key : List U8) (m : Nat) : Nat := keyCost key + 4 + (m + 8) / 64

/-! ### PBKDF2 -/

theorem costs_block (T : Target) (P S : List U8) (c i : Nat) :
    Costs (derive_block T P S c i) (Pbkdf2.derive_block T P S c i)
      (macCost P (S.length + 4) + (c - 1) * macCost P 32) := by
  unfold derive_block Pbkdf2.derive_block
  have e1 : macCost P (S.length + 4) + (c - 1) * macCost P 32 =
      (2 + keyCost P) + ((0 % 64 + S.length) / 64 + ((S.length % 64 + 4) / 64 +
        (((S.length + 4) % 64 + 8) / 64 + 2 + ((c - 1) * macCost P 32 + 0)))) := by
    unfold macCost
    omega
  rw [e1]
  refine (costs_hmacNew T P).1.bind fun h0 q0 => ?_
  have a0 := (costs_hmacNew T P).2 h0 q0
  refine (costs_hmacUpdate T h0 0 a0 S).1.bind fun h1 q1 => ?_
  have a1 := (costs_hmacUpdate T h0 0 a0 S).2 h1 q1
  rw [Nat.zero_add] at a1
  refine Costs.bind ((costs_hmacUpdate T h1 _ a1 _).1.of_eq rfl) fun h2 q2 => ?_
  have a2 := (costs_hmacUpdate T h1 _ a1 _).2 h2 q2
  refine Costs.bind (costs_hmacDigest T h2 _ a2) fun q _ => ?_
  obtain ⟨_, u⟩ := q
  refine Costs.bind ((Costs.forRange 2 (c + 1) (fun _ => True) (c := macCost P 32) (fun j st _ => ⟨?_, fun _ _ => trivial⟩)
    (u, u) trivial).1.of_eq (by rw [show c + 1 - 2 = c - 1 by omega])) fun _ _ => Costs.ret _
  obtain ⟨u, t⟩ := st
  dsimp only
  have e2 : macCost P 32 = (2 + keyCost P) + ((0 % 64 + 32) / 64 + ((32 % 64 + 8) / 64 + 2 + 0)) := by
    unfold macCost
    omega
  rw [e2]
  refine (costs_hmacNew T P).1.bind fun h0 q0 => ?_
  have a0 := (costs_hmacNew T P).2 h0 q0
  refine Costs.bind ((costs_hmacUpdate T h0 0 a0 u.toList).1.of_eq (by rw [Vector.length_toList])) fun h1 q1 => ?_
  have a1 := (costs_hmacUpdate T h0 0 a0 u.toList).2 h1 q1
  rw [Nat.zero_add, Vector.length_toList] at a1
  exact (costs_hmacDigest T h1 _ a1).bind' fun _ => (Costs.free _).bind0 fun _ _ => Costs.ret _

theorem costs_pbkdf2 (T : Target) (P S : List U8) (c : Nat) (out : List U8) (hout : out.length ≤ T.isizeMax) :
    Costs (pbkdf2_sha256 T P S c out) (Pbkdf2.pbkdf2_sha256 T P S c out)
      ((out.length + 31) / 32 * (macCost P (S.length + 4) + (c - 1) * macCost P 32)) := by
  unfold pbkdf2_sha256 Pbkdf2.pbkdf2_sha256
  have hlt : out.length + 32 < 2 ^ T.bits := by
    unfold Target.isizeMax at hout
    rcases T.bits_cases with e | e <;> rw [e] at hout ⊢ <;> omega
  refine (Costs.free _).bind0 fun a ha => (Costs.free _).bind0 fun b hb => ?_
  rw [T.add_ok (show out.length + DIGEST_SIZE < _ from hlt)] at ha
  cases ha
  rw [T.sub_ok (show 1 ≤ out.length + DIGEST_SIZE from Nat.le_add_left _ _)] at hb
  cases hb
  refine (Costs.forRange 1 _ (c := macCost P (S.length + 4) + (c - 1) * macCost P 32) (fun _ => True)
    (fun i o _ => ⟨?_, fun _ _ => trivial⟩) out trivial).1.of_eq ?_
  · refine ((costs_block T P S c i).bind' (d := 0) fun t => ?_).of_eq (Nat.add_zero _)
    exact (Costs.free _).bind0 fun _ _ => (Costs.free _).bind0 fun _ _ => (Costs.free _).bind0 fun _ _ =>
      (Costs.free _).bind0 fun _ _ => (Costs.free _).bind0 fun _ _ => Costs.free _
  · congr 1

/-! ### scrypt -/

theorem costs_salsa20 (i : List U8) (n : Nat) (o : List U8) : Costs (salsa20 i n o) (Salsa20.salsa20 i n o) 1 := by
  unfold salsa20
  exact tick_free _

theorem costs_mixLoop (b : List Scrypt.Block) (x : Scrypt.Block) :
    Costs (mixLoop b x) (Scrypt.mixLoop b x) b.length := by
  unfold mixLoop Scrypt.mixLoop
  refine (Costs.forEach b (c := 1) (fun _ => True) (fun y st _ => ⟨?_, fun _ _ => trivial⟩) _ trivial).1.of_eq
    (Nat.mul_one _)
  exact (costs_salsa20 _ _ _).bind' fun _ => Costs.ret _

theorem mixLoop_length (b : List Scrypt.Block) (x : Scrypt.Block) (q : Scrypt.Block × List Scrypt.Block)
    (h : Scrypt.mixLoop b x = .ok q) : q.2.length = b.length := by
  suffices ∀ (b : List Scrypt.Block) (st q : Scrypt.Block × List Scrypt.Block),
      Verif.forEach b st (fun b_elem (x, y) => do
        let t := block_xor x b_elem
        let x ← Salsa20.salsa20 t SALSA_ROUNDS x
        return (x, y ++ [x])) = .ok q → q.2.length = st.2.length + b.length by
    have := this b _ q h
    simpa using this
  intro b
  induction b with
  | nil => intro st q h; cases h; rfl
  | cons y b ih =>
    intro st q h
    rw [forEach_cons] at h
    obtain ⟨st1, h1, h⟩ := bind_ok h
    have := ih st1 q h
    obtain ⟨x, ys⟩ := st
    obtain ⟨x', _, h1⟩ := bind_ok h1
    cases h1
    rw [this]
    simp only [List.length_append, List.length_cons, List.length_nil]
    omega

theorem shuffle_length (y : List Scrypt.Block) : (Scrypt.shuffle y).length = y.length := by
  have key : ∀ (l : List (Scrypt.Block × Nat)) (h t : List Scrypt.Block),
      (l.foldl (fun (bs_head, bs_tail) (y_elem, i) =>
        if i % 2 = 0 then (bs_head ++ [y_elem], bs_tail) else (bs_head, bs_tail ++ [y_elem])) (h, t)).1.length +
      (l.foldl (fun (bs_head, bs_tail) (y_elem, i) =>
        if i % 2 = 0 then (bs_head ++ [y_elem], bs_tail) else (bs_head, bs_tail ++ [y_elem])) (h, t)).2.length =
      h.length + t.length + l.length := by
    intro l
    induction l with
    | nil => intro h t; rfl
    | cons x l ih =>
      intro h t
      obtain ⟨x, i⟩ := x
      rw [List.foldl_cons]
      dsimp only
      split
      · rw [ih, List.length_append, List.length_cons, List.length_cons, List.length_nil]; omega
      · rw [ih, List.length_append, List.length_cons, List.length_cons, List.length_nil]; omega
  unfold Scrypt.shuffle
  have := key y.zipIdx [] []
  rw [List.length_zipIdx] at this
  rw [List.length_append]
  simpa using this

theorem block_mix_length (T : Target) (s : Scrypt) (b b' : List Scrypt.Block) (h : s.block_mix T b = .ok b') :
    b'.length = b.length := by
  unfold Scrypt.block_mix at h
  obtain ⟨_, _, h⟩ := bind_ok h
  obtain ⟨_, _, h⟩ := bind_ok h
  obtain ⟨_, _, h⟩ := bind_ok h
  obtain ⟨_, _, h⟩ := bind_ok h
  obtain ⟨_, _, h⟩ := bind_ok h
  obtain ⟨q, hq, h⟩ := bind_ok h
  obtain ⟨_, _, h⟩ := bind_ok h
  obtain ⟨_, _, h⟩ := bind_ok h
  obtain ⟨_, _, h⟩ := bind_ok h
  have hl := mixLoop_length b _ q hq
  cases h
  rw [← hl]
  exact shuffle_length _

theorem costs_block_mix (T : Target) (s : Scrypt) (b : List Scrypt.Block) :
    Costs (block_mix T s b) (s.block_mix T b) b.length := by
  unfold block_mix Scrypt.block_mix
  refine (Costs.free _).bind0 fun _ _ => (Costs.free _).bind0 fun _ _ => (Costs.free _).bind0 fun _ _ =>
    (Costs.free _).bind0 fun _ _ => (Costs.free _).bind0 fun _ _ => ?_
  exact (costs_mixLoop b _).bind' fun _ => (Costs.free _).bind0 fun _ _ => (Costs.free _).bind0 fun _ _ =>
    (Costs.free _).bind0 fun _ _ => Costs.ret _

theorem costs_ro_mix (T : Target) (s : Scrypt) (b : List Scrypt.Block) :
    Costs (ro_mix T s b) (s.ro_mix T b) (2 * s.n * b.length) := by
  unfold ro_mix Scrypt.ro_mix
  refine (Costs.free _).bind0 fun _ _ => ?_
  have hfill := Costs.forRange 0 s.n (c := b.length)
    (body := fun _i ((v, x) : List (List Scrypt.Block) × List Scrypt.Block) => do
      let t ← block_mix T s x
      return (v ++ [x], t))
    (body' := fun _i ((v, x) : List (List Scrypt.Block) × List Scrypt.Block) => do
      let t ← s.block_mix T x
      return (v ++ [x], t))
    (fun st => st.2.length = b.length ∧ ∀ y ∈ st.1, y.length = b.length)
    (fun i st hst => by
      obtain ⟨v, x⟩ := st
      refine ⟨((costs_block_mix T s x).bind' fun _ => Costs.ret _).of_eq hst.1, ?_⟩
      intro st' h
      obtain ⟨t, ht, h⟩ := bind_ok h
      cases h
      refine ⟨(block_mix_length T s x t ht).trans hst.1, ?_⟩
      intro y hy
      rcases List.mem_append.mp hy with hy | hy
      · exact hst.2 y hy
      · rw [List.mem_singleton] at hy
        exact hy ▸ hst.1)
    ([], b) ⟨rfl, by simp⟩
  refine (hfill.1.bind fun q hq => ?_).of_eq (show (s.n - 0) * b.length + s.n * b.length = _ by
    rw [Nat.sub_zero, Nat.mul_assoc, Nat.two_mul])
  obtain ⟨v, x⟩ := q
  obtain ⟨hx, hv⟩ := hfill.2 _ hq
  refine (Costs.forRange 0 s.n (c := b.length) (fun x : List Scrypt.Block => x.length = b.length) (fun i x hx => ?_) x hx).1.of_eq
    (by rw [Nat.sub_zero])
  have hz : ∀ vj ∈ v, (List.zipWith (fun x_block v_block => block_xor x_block v_block) x vj).length = b.length := by
    intro vj hvj
    rw [List.length_zipWith, hx, hv vj hvj, Nat.min_self]
  have hidx : ∀ j vj, idx v j = .ok vj → vj ∈ v := by
    intro j vj h
    unfold idx at h
    split at h
    · rename_i y hy
      cases h
      exact List.mem_of_getElem? hy
    · cases h
  constructor
  · refine (Costs.free _).bind0 fun _ _ => (Costs.free _).bind0 fun _ _ => (Costs.free _).bind0 fun vj hvj => ?_
    exact (costs_block_mix T s _).of_eq (hz vj (hidx _ _ hvj))
  · intro x' h
    obtain ⟨_, _, h⟩ := bind_ok h
    obtain ⟨_, _, h⟩ := bind_ok h
    obtain ⟨vj, hvj, h⟩ := bind_ok h
    exact (block_mix_length T s _ x' h).trans (hz vj (hidx _ _ hvj))

theorem copy_length (xs : List U8) (a b : Nat) (src ys : List U8) (h : copyFromSlice xs a b src = .ok ys) :
    ys.length = xs.length := by
  unfold copyFromSlice at h
  split at h
  · split at h
    · cases h
      simp only [List.length_append, List.length_take, List.length_drop]
      omega
    · cases h
  · cases h

theorem pbkdf2_length (T : Target) (P S : List U8) (c : Nat) (out out' : List U8)
    (h : Pbkdf2.pbkdf2_sha256 T P S c out = .ok out') : out'.length = out.length := by
  unfold Pbkdf2.pbkdf2_sha256 at h
  obtain ⟨_, _, h⟩ := bind_ok h
  obtain ⟨_, _, h⟩ := bind_ok h
  dsimp only at h
  unfold Verif.forRangeIncl Verif.forRange at h
  suffices ∀ (l : List Nat) (o o' : List U8), Verif.forEach l o (fun i out => do
      let t ← Pbkdf2.derive_block T P S c i
      let start ← T.mul (← T.sub i 1) DIGEST_SIZE
      let endm ← T.mul i DIGEST_SIZE
      let «end» := min endm out.length
      let src ← slice t.toList 0 (← T.sub «end» start)
      copyFromSlice out start «end» src) = .ok o' → o'.length = o.length from this _ out out' h
  intro l
  induction l with
  | nil => intro o o' h; cases h; rfl
  | cons x l ih =>
    intro o o' h
    rw [forEach_cons] at h
    obtain ⟨o1, h1, h⟩ := bind_ok h
    rw [ih o1 o' h]
    obtain ⟨_, _, h1⟩ := bind_ok h1
    obtain ⟨_, _, h1⟩ := bind_ok h1
    obtain ⟨_, _, h1⟩ := bind_ok h1
    obtain ⟨_, _, h1⟩ := bind_ok h1
    obtain ⟨_, _, h1⟩ := bind_ok h1
    obtain ⟨_, _, h1⟩ := bind_ok h1
    exact copy_length _ _ _ _ _ h1

theorem chunksAux_spec {α : Type} (k n : Nat) (xs : List α) (h : k * n ≤ xs.length) :
    (chunksAux k n xs).length = k ∧ ∀ c ∈ chunksAux k n xs, c.length = n := by
  induction k generalizing xs with
  | zero => exact ⟨rfl, fun c hc => by cases hc⟩
  | succ k ih =>
    rw [Nat.succ_mul] at h
    obtain ⟨h1, h2⟩ := ih (xs.drop n) (by rw [List.length_drop]; omega)
    refine ⟨by rw [chunksAux, List.length_cons, h1], ?_⟩
    intro c hc
    rw [chunksAux] at hc
    rcases List.mem_cons.mp hc with rfl | hc
    · rw [List.length_take]; omega
    · exact h2 c hc

theorem chunksExact_spec {α : Type} (xs : List α) (n : Nat) (cs : List (List α)) (h : chunksExact xs n = .ok cs) :
    cs.length = xs.length / n ∧ ∀ c ∈ cs, c.length = n := by
  unfold chunksExact at h
  split at h
  · cases h
  · cases h
    exact chunksAux_spec _ _ _ (Nat.div_mul_le_self _ _)

theorem mapM_mem {α β : Type} (f : α → M β) (xs : List α) (ys : List β) (h : xs.mapM f = .ok ys) :
    ys.length = xs.length ∧ ∀ y ∈ ys, ∃ x ∈ xs, f x = .ok y := by
  induction xs generalizing ys with
  | nil => cases h; exact ⟨rfl, fun y hy => by cases hy⟩
  | cons x xs ih =>
    rw [List.mapM_cons] at h
    obtain ⟨y, hy, h⟩ := bind_ok h
    obtain ⟨ys', hys, h⟩ := bind_ok h
    cases h
    obtain ⟨h1, h2⟩ := ih ys' hys
    refine ⟨by rw [List.length_cons, List.length_cons, h1], ?_⟩
    intro z hz
    rcases List.mem_cons.mp hz with rfl | hz
    · exact ⟨x, by simp, hy⟩
    · obtain ⟨w, hw, e⟩ := h2 z hz
      exact ⟨w, by simp [hw], e⟩

/-- The product `p * 2 * 64 * r` when it has not wrapped. -/
theorem mul_exact (T : Target) (a b c : Nat) (hw : T.checks = true ∨ a * b < 2 ^ T.bits) (h : T.mul a b = .ok c) :
    c = a * b := by
  unfold Target.mul at h
  split at h
  · cases h; rfl
  · rename_i hn
    rcases hw with hw | hw
    · rw [if_pos hw] at h; cases h
    · exact absurd hw hn

theorem costs_derive (T : Target) (s : Scrypt) (P S out : List U8)
    (hwrap : T.checks = true ∨ 128 * s.r * s.p < 2 ^ T.bits) (k : Nat) :
    derive T s P S out k = (s.derive T P S out).map fun q =>
      (q, k + match q.2 with
        | .ok () => 4 * s.n * s.r * s.p
        | .error _ => 0) := by
  unfold derive Scrypt.derive
  split
  · rfl
  rename_i hr
  split
  · rfl
  rename_i hn
  rw [T.sub_ok (by omega)]
  show (if _ then _ else _ : C _) k = Except.map _ (if _ then _ else _)
  split
  · rfl
  split
  · rfl
  rename_i hp
  suffices ∀ {x : C (List U8 × Except ScryptError Unit)} {m : M (List U8 × Except ScryptError Unit)},
      Costs x m (4 * s.n * s.r * s.p) → (∀ q, m = .ok q → q.2 = .ok ()) → x k = m.map fun q =>
      (q, k + match q.2 with
        | .ok () => 4 * s.n * s.r * s.p
        | .error _ => 0) by
    refine this ?_ ?_
    · refine (Costs.free _).bind0 fun a ha => (Costs.free _).bind0 fun b hb => (Costs.free _).bind0 fun size hsize =>
        (Costs.free _).bind0 fun _ _ => (Costs.free _).bind0 fun raw hraw => (Costs.free _).bind0 fun cs hcs =>
        (Costs.free _).bind0 fun lanes hlanes => (Costs.free _).bind0 fun bs hbs => ?_
      have hrp : 1 ≤ s.r ∧ 1 ≤ s.p := by omega
      have h1 : s.p * 128 ≤ 128 * s.r * s.p := by
        rw [Nat.mul_comm s.p 128, Nat.mul_assoc]
        exact Nat.mul_le_mul_left _ (Nat.le_mul_of_pos_left _ hrp.1)
      have h2 : 128 * s.r ≤ 128 * s.r * s.p := Nat.le_mul_of_pos_right _ hrp.2
      have ha := mul_exact T _ _ _ (hwrap.imp id fun h => by omega) ha
      subst ha
      have hb := mul_exact T _ _ _ (hwrap.imp id fun h => by show s.p * 2 * 64 < _; omega) hb
      subst hb
      have hsz : s.p * 2 * Scrypt.BLOCK_SIZE * s.r = 128 * s.r * s.p := by
        show s.p * 2 * 64 * s.r = _
        rw [Nat.mul_assoc s.p, Nat.mul_comm s.p, Nat.mul_right_comm]
      have hsize := mul_exact T _ _ _ (hwrap.imp id fun h => by rw [hsz]; exact h) hsize
      rw [hsz] at hsize
      subst hsize
      have hcs := mul_exact T _ _ _ (hwrap.imp id fun h => by show 2 * 64 * s.r < _; omega) hcs
      have hcs : cs = 128 * s.r := hcs
      subst hcs
      have hrawl := pbkdf2_length T P S _ _ raw hraw
      rw [List.length_replicate] at hrawl
      obtain ⟨l1, l2⟩ := chunksExact_spec _ _ _ hlanes
      rw [hrawl, Nat.mul_div_cancel_left _ (by omega)] at l1
      obtain ⟨m1, m2⟩ := mapM_mem _ _ _ hbs
      refine ((Costs.mapM bs (c := 2 * s.n * (2 * s.r)) fun b hb => ?_).bind' fun _ =>
        (Costs.free _).bind0 fun _ _ => Costs.ret _).of_eq ?_
      · obtain ⟨lane, hl, e⟩ := m2 b hb
        have := (chunksExact_spec _ _ _ e).1
        rw [l2 lane hl] at this
        refine (costs_ro_mix T s b).of_eq ?_
        rw [this]
        show 2 * s.n * (128 * s.r / 64) = _
        congr 1
        omega
      · rw [m1, l1, Nat.add_zero, Nat.mul_comm]
        congr 1
        rw [← Nat.mul_assoc, Nat.mul_right_comm 2 s.n 2]
    · intro q h
      obtain ⟨_, _, h⟩ := bind_ok h
      obtain ⟨_, _, h⟩ := bind_ok h
      obtain ⟨_, _, h⟩ := bind_ok h
      obtain ⟨_, _, h⟩ := bind_ok h
      obtain ⟨_, _, h⟩ := bind_ok h
      obtain ⟨_, _, h⟩ := bind_ok h
      obtain ⟨_, _, h⟩ := bind_ok h
      obtain ⟨_, _, h⟩ := bind_ok h
      obtain ⟨_, _, h⟩ := bind_ok h
      obtain ⟨_, _, h⟩ := bind_ok h
      cases h
      rfl
  intro x m hx hq
  rw [hx k]
  cases m with
  | error e => rfl
  | ok q =>
    show Except.ok (q, _) = Except.ok (q, _)
    rw [hq q rfl]

end Verif.Counted
