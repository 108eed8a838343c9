import Verif.Model.Heap
import Verif.Proof.GrowingScrypt

/-! The heap model of scrypt: without the heap it is the model of `Model/Growing.lean`, and how each function changes the heap. -/

namespace Verif.Heap
open Verif Verif.Scrypt Verif.Growing

/-! ### Without the heap -/

/-- Without the heap, `f` is `m`. -/
def Erases {α : Type} (f : H α) (m : M α) : Prop := ∀ h, (f h).map Prod.fst = m

theorem bind_run {α β : Type} (f : H α) (g : α → H β) (h : Heap) :
    (f >>= g) h = (match f h with | .ok (a, h') => g a h' | .error e => .error e) := by
  show StateT.bind f g h = _
  unfold StateT.bind
  show Except.bind (f h) _ = _
  cases f h <;> rfl

theorem Erases.pure {α : Type} (a : α) : Erases (Pure.pure a : H α) (Pure.pure a) := fun _ => rfl

theorem Erases.lift {α : Type} (m : M α) : Erases (Heap.lift m) m := fun h => by
  unfold Heap.lift; cases m <;> rfl

theorem Erases.bind {α β : Type} {f : H α} {m : M α} {g : α → H β} {k : α → M β} (hf : Erases f m) (hg : ∀ a, Erases (g a) (k a)) :
    Erases (f >>= g) (m >>= k) := fun h => by
  have h1 := hf h
  rw [bind_run]
  cases e : f h with
  | error x => rw [e] at h1; rw [← h1]; rfl
  | ok p =>
    rw [e] at h1
    rw [← h1]
    exact hg p.1 p.2

theorem Erases.end {α : Type} {f : H α} {m : M α} {g : α → H α} (hf : Erases f m) (hg : ∀ a, Erases (g a) (Pure.pure a)) :
    Erases (f >>= g) m := by
  have h := hf.bind hg
  rwa [bind_pure] at h

theorem Erases.take {β : Type} {n : Nat} {g : Unit → H β} {k : M β} (hg : Erases (g ()) k) : Erases (Heap.take n >>= g) k :=
  fun h => hg ⟨h.live + n, max h.peak (h.live + n)⟩

theorem Erases.give {β : Type} {n : Nat} {g : Unit → H β} {k : M β} (hg : Erases (g ()) k) : Erases (Heap.give n >>= g) k :=
  fun h => hg ⟨h.live - n, h.peak⟩

theorem Erases.ite {α : Type} (c : Prop) [Decidable c] {f g : H α} {m k : M α} (h1 : Erases f m) (h2 : Erases g k) :
    Erases (if c then f else g) (if c then m else k) := by split <;> assumption

theorem Erases.forEach {α σ : Type} (xs : List α) (s : σ) {body : α → σ → H σ} {body' : α → σ → M σ}
    (hb : ∀ x s, Erases (body x s) (body' x s)) : Erases (Heap.forEach xs s body) (Verif.forEach xs s body') := by
  induction xs generalizing s with
  | nil => exact Erases.pure s
  | cons x xs ih => exact Erases.bind (hb x s) fun s => ih s

theorem Erases.forRange {σ : Type} (lo hi : Nat) (s : σ) {body : Nat → σ → H σ} {body' : Nat → σ → M σ}
    (hb : ∀ x s, Erases (body x s) (body' x s)) : Erases (Heap.forRange lo hi s body) (Verif.forRange lo hi s body') :=
  Erases.forEach _ _ hb

theorem Erases.mapM {α β : Type} (xs : List α) {f : α → H β} {f' : α → M β} (hf : ∀ x, Erases (f x) (f' x)) :
    Erases (xs.mapM f) (xs.mapM f') := by
  induction xs with
  | nil => exact Erases.pure []
  | cons x xs ih =>
    rw [List.mapM_cons, List.mapM_cons]
    exact (hf x).bind fun y => ih.bind fun ys => Erases.pure _

theorem mixLoop_erases (b : List Block) (x : Block) : Erases (mixLoop b x) (Scrypt.mixLoop b x) := by
  refine Erases.forEach _ _ ?_
  rintro b_elem ⟨x, y⟩
  have h1 : Erases (block_xor x b_elem) (Pure.pure (Scrypt.block_xor x b_elem)) := Erases.take (Erases.pure _)
  exact h1.bind (k := fun t => do let x ← Salsa20.salsa20 t SALSA_ROUNDS x; return (x, y ++ [x])) fun t =>
    (Erases.lift _).bind fun x => Erases.take (Erases.give (Erases.pure _))

theorem block_mix_erases (T : Target) (s : Scrypt) (b : List Block) : Erases (block_mix T s b) (s.block_mix T b) := by
  have e : s.block_mix T b = (do
    let x ← (do idx b (← T.sub (← T.mul 2 s.r) 1))
    (do T.reserve T.vecSize (← T.mul 2 s.r))
    let (_, y) ← Scrypt.mixLoop b x
    (do T.reserve T.vecSize (← T.mul 2 s.r))
    T.reserve T.vecSize s.r
    return Scrypt.shuffle y) := by
      simp only [bind_assoc]; rfl
  rw [e]
  refine (Erases.lift _).bind fun x => Erases.take <| (Erases.lift _).bind fun _ => Erases.take <| (mixLoop_erases b x).bind ?_
  rintro ⟨x, y⟩
  exact (Erases.lift _).bind fun _ => Erases.take <| (Erases.lift _).bind fun _ => Erases.take <| Erases.give <| Erases.give <| Erases.give <| Erases.pure _

theorem ro_mix_erases (T : Target) (s : Scrypt) (b : List Block) : Erases (ro_mix T s b) (s.ro_mix T b) := by
  have e : s.ro_mix T b = (do
    T.reserve T.vecSize s.n
    let (v, x) ← Verif.forRange 0 s.n (([] : List (List Block)), b) fun _i (v, x) => do
      let t ← s.block_mix T x
      return (v ++ [x], t)
    let x ← Verif.forRange 0 s.n x fun _i x => do
      let j ← (do T.rem ((← integerify T x).toNat % 2 ^ T.bits) s.n)
      let vj ← idx v j
      s.block_mix T (List.zipWith (fun x_block v_block => Scrypt.block_xor x_block v_block) x vj)
    return x) := by
      rw [Scrypt.ro_mix]; simp only [bind_assoc]
  rw [e]
  refine (Erases.lift _).bind fun _ => Erases.take <| (Erases.forRange _ _ _ ?_).bind ?_
  · rintro i ⟨v, x⟩
    exact (block_mix_erases T s x).bind fun t => Erases.pure _
  · rintro ⟨v, x⟩
    refine (Erases.forRange _ _ _ ?_).end fun x => Erases.give (Erases.pure _)
    intro i x
    exact (Erases.lift _).bind fun j => (Erases.lift _).bind fun vj => Erases.take <|
      (block_mix_erases T s _).end fun x' => Erases.give (Erases.give (Erases.pure _))

theorem blockOctets_fst (more : Nat) (block : Block) : (blockOctets more block).map Prod.fst = block := by
  unfold blockOctets
  rw [List.map_map]
  show block.zipIdx.map Prod.fst = block
  exact List.zipIdx_map_fst 0 block

theorem zipIdx_flatMap {α β : Type} (l : List α) (f : Nat → α → List β) (g : α → List β) (k : Nat) (h : ∀ i x, f i x = g x) :
    (l.zipIdx k).flatMap (fun (x, i) => f i x) = (l.map g).flatten := by
  induction l generalizing k with
  | nil => rfl
  | cons x l ih =>
    rw [List.zipIdx_cons, List.flatMap_cons, ih, List.map_cons, List.flatten_cons]
    show f k x ++ _ = _
    rw [h]

theorem laneOctets_fst (T : Target) (more : Nat) (lane : List Block) : (laneOctets T more lane).map Prod.fst = lane.flatten := by
  unfold laneOctets
  rw [List.map_flatMap]
  have := zipIdx_flatMap lane (fun i block => (blockOctets (if i + 1 = lane.length then lane.length * T.vecSize + more else 0) block).map Prod.fst)
    id 0 (fun i x => blockOctets_fst _ x)
  rw [List.map_id] at this
  exact this

theorem octets_fst (T : Target) (b : List (List Block)) : (octets T b).map Prod.fst = b.flatten.flatten := by
  unfold octets
  rw [List.map_flatMap]
  have := zipIdx_flatMap b (fun i lane => (laneOctets T (if i + 1 = b.length then b.length * T.vecSize else 0) lane).map Prod.fst)
    List.flatten 0 (fun i x => laneOctets_fst T _ x)
  rw [← List.flatten_flatten] at this
  exact this

theorem extend_erases (T : Target) (G : Policy) (lower : Nat → Nat) (xs : List (U8 × Nat)) (v : VecU8) :
    Erases (extend T G lower v xs) (VecU8.extend T G lower v (xs.map Prod.fst)) := by
  induction xs generalizing v with
  | nil => exact Erases.pure _
  | cons p xs ih =>
    obtain ⟨x, gone⟩ := p
    have e : VecU8.extend T G lower v (((x, gone) :: xs).map Prod.fst) = (do
      let v ← (if v.data.length = v.cap then v.reserve T G (lower xs.length + 1) else Pure.pure v)
      VecU8.extend T G lower { v with data := v.data ++ [x] } (xs.map Prod.fst)) := by
      rw [List.map_cons, VecU8.extend, List.length_map]
      split <;> rfl
    rw [e, extend]
    refine (Erases.lift _).bind fun v' => ?_
    split
    · exact Erases.take (Erases.give (Erases.give (ih _)))
    · exact Erases.give (ih _)

theorem collect_erases (T : Target) (G : Policy) (lower : Nat → Nat) (xs : List (U8 × Nat)) :
    Erases (collect T G lower xs) (VecU8.collect T G lower (xs.map Prod.fst)) := by
  cases xs with
  | nil => exact Erases.pure _
  | cons p xs =>
    obtain ⟨x, gone⟩ := p
    rw [collect, List.map_cons, VecU8.collect, List.length_map]
    exact (Erases.lift _).bind fun _ => Erases.take (Erases.give (extend_erases T G lower xs _))

theorem derive_erases (T : Target) (G : Policy) (lower : Nat → Nat) (inPlace : Bool) (s : Scrypt) (P S out : List U8) :
    Erases (derive T G lower inPlace s P S out) (Growing.derive T G lower s P S out) := by
  have e : Growing.derive T G lower s P S out = (do
    if s.r < 1 then
      return (out, .error .RIsTooSmall)
    if s.n < 1 then
      return (out, .error .NIsTooSmall)
    if ((← T.sub s.n 1) &&& s.n) ≠ 0 then
      return (out, .error .NIsNotAPowerOfTwo)
    if s.p < 1 then
      return (out, .error .PIsTooSmall)
    let size ← (do T.mul (← T.mul (← T.mul s.p 2) Scrypt.BLOCK_SIZE) s.r)
    T.reserve 1 size
    let raw_b ← Pbkdf2.pbkdf2_sha256 T P S Scrypt.PBKDF2_ROUNDS (List.replicate size (0 : U8))
    let b ← (do (← chunksExact raw_b (← T.mul (2 * Scrypt.BLOCK_SIZE) s.r)).mapM (fun chunk => chunksExact chunk Scrypt.BLOCK_SIZE))
    let b ← b.mapM (fun elem => s.ro_mix T elem)
    let b_salt ← VecU8.collect T G lower b.flatten.flatten
    let out ← Pbkdf2.pbkdf2_sha256 T P b_salt.data Scrypt.PBKDF2_ROUNDS out
    return (out, .ok ())) := by
      simp only [bind_assoc]; rfl
  rw [e]
  refine .ite _ (.pure _) (.ite _ (.pure _) ((Erases.lift _).bind fun _ => .ite _ (.pure _) (.ite _ (.pure _) ?_)))
  refine (Erases.lift _).bind fun size => (Erases.lift _).bind fun _ => Erases.take <| (Erases.lift _).bind fun raw => (Erases.lift _).bind fun b =>
    Erases.take <| Erases.take <| (Erases.mapM _ fun x => ro_mix_erases T s x).bind fun b' => Erases.give ?_
  rw [← octets_fst T b']
  exact (collect_erases T G lower (octets T b')).bind fun salt => (Erases.lift _).bind fun out => Erases.give (Erases.give (Erases.pure _))

/-! ### The heap -/

/-- Whatever is returned, and the heap then, satisfy `Q`. -/
def Post {α : Type} (x : M (α × Heap)) (Q : α → Heap → Prop) : Prop := ∀ a h, x = .ok (a, h) → Q a h

theorem Post.pure {α : Type} {Q : α → Heap → Prop} {a : α} {h : Heap} (hq : Q a h) : Post ((Pure.pure a : H α) h) Q := by
  intro a' h' e
  cases e
  exact hq

theorem Post.bind {α β : Type} {Q : α → Heap → Prop} {R : β → Heap → Prop} {f : H α} {g : α → H β} {h : Heap} (hf : Post (f h) Q)
    (hg : ∀ a h', Q a h' → Post (g a h') R) : Post ((f >>= g) h) R := by
  intro b h' e
  rw [bind_run] at e
  cases e1 : f h with
  | error x => rw [e1] at e; cases e
  | ok p => rw [e1] at e; exact hg p.1 p.2 (hf _ _ e1) _ _ e

theorem Post.bind_eq {α β : Type} {Q : α → Heap → Prop} {R : β → Heap → Prop} {f : H α} {g : α → H β} {h : Heap} (hf : Post (f h) Q)
    (hg : ∀ a h', f h = .ok (a, h') → Q a h' → Post (g a h') R) : Post ((f >>= g) h) R := by
  intro b h' e
  rw [bind_run] at e
  cases e1 : f h with
  | error x => rw [e1] at e; cases e
  | ok p => rw [e1] at e; exact hg p.1 p.2 e1 (hf _ _ e1) _ _ e

theorem Post.lift {α β : Type} {R : β → Heap → Prop} {m : M α} {g : α → H β} {h : Heap} (hg : ∀ a, m = .ok a → Post (g a h) R) :
    Post ((Heap.lift m >>= g) h) R := by
  refine Post.bind (Q := fun a h' => m = .ok a ∧ h' = h) ?_ ?_
  · intro a h' e
    unfold Heap.lift at e
    cases m with
    | error x => cases e
    | ok b => cases e; exact ⟨rfl, rfl⟩
  · rintro a h' ⟨e, rfl⟩
    exact hg a e

theorem Post.take {β : Type} {R : β → Heap → Prop} {n : Nat} {g : Unit → H β} {L P : Int} (hg : Post (g () ⟨L + n, max P (L + n)⟩) R) :
    Post ((Heap.take n >>= g) ⟨L, P⟩) R := hg

theorem Post.give {β : Type} {R : β → Heap → Prop} {n : Nat} {g : Unit → H β} {L P : Int} (hg : Post (g () ⟨L - n, P⟩) R) :
    Post ((Heap.give n >>= g) ⟨L, P⟩) R := hg

theorem Post.mono {α : Type} {Q R : α → Heap → Prop} {x : M (α × Heap)} (hq : Post x Q) (h : ∀ a L P, Q a ⟨L, P⟩ → R a ⟨L, P⟩) : Post x R :=
  fun a h' e => h a h'.live h'.peak (hq a h' e)

theorem Post.erased {α : Type} {Q : α → Heap → Prop} {f : H α} {m : M α} {h : Heap} (he : Erases f m)
    (hq : ∀ a, m = .ok a → Post (f h) Q) : Post (f h) Q := by
  intro a h' e
  have : m = .ok a := by rw [← he h, e]; rfl
  exact hq a this a h' e

theorem Post.value {α : Type} {Q : α → Heap → Prop} {R : α → Prop} {f : H α} {m : M α} {h : Heap} (he : Erases f m)
    (hr : ∀ a, m = .ok a → R a) (hq : Post (f h) Q) : Post (f h) (fun a h' => R a ∧ Q a h') := by
  intro a h' e
  have : m = .ok a := by rw [← he h, e]; rfl
  exact ⟨hr a this, hq a h' e⟩

theorem Post.forEach {α σ : Type} (xs : List α) (body : α → σ → H σ) (I : Nat → σ → Heap → Prop) (i : Nat) (s : σ) (h : Heap) (h0 : I i s h)
    (hb : ∀ j x s L P, x ∈ xs → i ≤ j → j < i + xs.length → I j s ⟨L, P⟩ → Post (body x s ⟨L, P⟩) (I (j + 1))) :
    Post (Heap.forEach xs s body h) (I (i + xs.length)) := by
  induction xs generalizing i s h with
  | nil => exact Post.pure h0
  | cons x xs ih =>
    have h1 := hb i x s h.live h.peak (by simp) (Nat.le_refl _) (by simp) h0
    refine Post.bind (f := body x s) h1 fun s' h' h2 => ?_
    have := ih (i + 1) s' h' h2 fun j y s L P hy h3 h4 => hb j y s L P (by simp [hy]) (by omega) (by rw [List.length_cons]; omega)
    rw [List.length_cons, show i + (xs.length + 1) = i + 1 + xs.length by omega]
    exact this

theorem Post.forRange {σ : Type} (n : Nat) (body : Nat → σ → H σ) (I : Nat → σ → Heap → Prop) (s : σ) (h : Heap) (h0 : I 0 s h)
    (hb : ∀ j x s L P, j < n → I j s ⟨L, P⟩ → Post (body x s ⟨L, P⟩) (I (j + 1))) : Post (Heap.forRange 0 n s body h) (I n) := by
  have := Post.forEach (List.range' 0 (n - 0)) body I 0 s h h0 (by
    intro j x s L P _ _ hj
    rw [List.length_range'] at hj
    exact hb j x s L P (by omega))
  rw [List.length_range', Nat.zero_add, Nat.sub_zero] at this
  exact this

theorem sum64 (b : List Block) (h : ∀ x ∈ b, x.length = 64) : (b.map List.length).sum = 64 * b.length := by
  induction b with
  | nil => rfl
  | cons x b ih =>
    rw [List.map_cons, List.sum_cons, ih (fun y hy => h y (by simp [hy])), h x (by simp), List.length_cons]
    omega

/-- The bytes of a lane: `2 * r` headers and `2 * r` blocks. -/
def laneBytes (T : Target) (r : Nat) : Nat := 2 * r * T.vecSize + 128 * r

theorem bytes_shape (T : Target) (r : Nat) (b : List Block) (h : Shape r b) : bytes T b = laneBytes T r := by
  rw [bytes, sum64 b h.2, h.1, laneBytes]; omega

theorem bytes2_shape (T : Target) (r : Nat) (b : List (List Block)) (h : ∀ x ∈ b, Shape r x) :
    bytes2 T b = b.length * T.vecSize + b.length * laneBytes T r := by
  rw [bytes2]
  congr 1
  induction b with
  | nil => simp
  | cons x b ih =>
    rw [List.map_cons, List.sum_cons, ih (fun y hy => h y (by simp [hy])), bytes_shape T r x (h x (by simp)), List.length_cons, Nat.add_mul]
    omega

theorem mixLoop_heap (b : List Block) (x : Block) (hb : ∀ y ∈ b, y.length = 64) (hb0 : b ≠ []) (hx : x.length = 64) (L P : Int) :
    Post (mixLoop b x ⟨L, P⟩) fun p h => p.1.length = 64 ∧ h.live = L + 64 * b.length ∧ h.peak = max P (L + 64 * b.length + 64) := by
  have := Post.forEach b (fun b_elem (p : Block × List Block) => match p with
    | (x, y) => do
      let t ← block_xor x b_elem
      let x ← lift (Salsa20.salsa20 t SALSA_ROUNDS x)
      Heap.take x.length
      Heap.give t.length
      return (x, y ++ [x]))
    (fun i p h => p.1.length = 64 ∧ h.live = L + 64 * i ∧ h.peak = if i = 0 then P else max P (L + 64 * i + 64))
    0 (x, []) ⟨L, P⟩ ⟨hx, by simp, rfl⟩ ?_
  · refine Post.mono this ?_
    rintro p L' P' ⟨h1, h2, h3⟩
    have : b.length ≠ 0 := by simpa using hb0
    rw [Nat.zero_add] at h2 h3
    rw [if_neg this] at h3
    exact ⟨h1, h2, h3⟩
  · rintro j e ⟨x, y⟩ L' P' he _ _ ⟨h1, h2, h3⟩
    change x.length = 64 at h1
    have hxe : (Scrypt.block_xor x e).length = 64 := by rw [block_xor_eq, xorBytes_length, h1, hb e he]; rfl
    show Post (((block_xor x e >>= fun t => lift (Salsa20.salsa20 t SALSA_ROUNDS x) >>= fun x => Heap.take x.length >>= fun _ =>
      Heap.give t.length >>= fun _ => Pure.pure (x, y ++ [x])) : H (Block × List Block)) ⟨L', P'⟩) _
    refine Post.bind (Q := fun t h => t = Scrypt.block_xor x e ∧ h = ⟨L' + 64, max P' (L' + 64)⟩) ?_ ?_
    · refine Post.take (Post.pure ⟨rfl, ?_⟩)
      rw [hxe]; rfl
    · rintro t h ⟨rfl, rfl⟩
      refine Post.lift fun x' hx' => ?_
      rw [salsa_ok _ _ hxe h1] at hx'
      cases hx'
      refine Post.take (Post.give (Post.pure ⟨salsa208_length _, ?_, ?_⟩))
      · rw [salsa208_length, hxe]
        change L' = _ at h2
        show L' + 64 + ((64 : Nat) : Int) - ((64 : Nat) : Int) = _
        omega
      · rw [salsa208_length]
        change L' = _ at h2
        change P' = _ at h3
        show max (max P' (L' + 64)) (L' + 64 + ((64 : Nat) : Int)) = _
        rw [if_neg (by omega)]
        split at h3 <;> omega

/-- The most that `block_mix` takes. -/
def mixBytes (T : Target) (r : Nat) : Nat := 64 + laneBytes T r + max 64 (3 * r * T.vecSize)

theorem block_mix_heap (T : Target) (s : Scrypt) (b : List Block) (hr : 1 ≤ s.r) (hb : Shape s.r b)
    (hcap : 2 * s.r * T.vecSize ≤ T.isizeMax) (L P : Int) :
    Post (block_mix T s b ⟨L, P⟩) fun b' h => Shape s.r b' ∧ h.live = L + laneBytes T s.r ∧ h.peak = max P (L + mixBytes T s.r) := by
  refine Post.value (block_mix_erases T s b) (R := fun b' => Shape s.r b') ?_ ?_
  · intro a ha
    obtain ⟨b', h1, h2, _⟩ := block_mix_ok T s b hr hb hcap
    rw [ha] at h1; cases h1; exact h2
  unfold block_mix
  refine Post.lift fun x hx => ?_
  have hx64 : x.length = 64 := by
    rw [T.mul_ok (two_mul_lt T s.r hcap), ok_bind, T.sub_ok (by omega), ok_bind, idx_ok _ _ (by have := hb.1; omega)] at hx
    cases hx
    exact hb.2 _ (List.getElem_mem _)
  refine Post.take <| Post.lift fun _ _ => Post.take <| Post.bind (mixLoop_heap b x hb.2 (by
    intro h; rw [h] at hb; have := hb.1; simp at this; omega) hx64 _ _) ?_
  rintro ⟨x', y⟩ ⟨L', P'⟩ ⟨h1, h2, h3⟩
  change x'.length = 64 at h1
  change L' = _ at h2
  change P' = _ at h3
  refine Post.lift fun _ _ => Post.take <| Post.lift fun _ _ => Post.take <| Post.give <| Post.give <| Post.give <| Post.pure ⟨?_, ?_⟩
  · subst h2
    rw [hx64, h1, hb.1, laneBytes]
    simp only
    have e1 : 2 * s.r * T.vecSize = 2 * (s.r * T.vecSize) := Nat.mul_assoc ..
    rw [e1]
    generalize s.r * T.vecSize = m
    omega
  · subst h2 h3
    rw [hx64, hb.1, mixBytes, laneBytes]
    simp only
    have e1 : 2 * s.r * T.vecSize = 2 * (s.r * T.vecSize) := Nat.mul_assoc ..
    have e2 : 3 * s.r * T.vecSize = 3 * (s.r * T.vecSize) := Nat.mul_assoc ..
    rw [e1, e2]
    generalize s.r * T.vecSize = m
    omega

/-- The most that `ro_mix` takes. -/
def roBytes (T : Target) (r n : Nat) : Nat := n * T.vecSize + (n + 1) * laneBytes T r + mixBytes T r

theorem ro_mix_heap (T : Target) (s : Scrypt) (b : List Block) (hr : 1 ≤ s.r) (hn : 1 ≤ s.n) (hb : Shape s.r b)
    (hcap : 2 * s.r * T.vecSize ≤ T.isizeMax) (L P : Int) :
    Post (ro_mix T s b ⟨L, P⟩) fun b' h => Shape s.r b' ∧ h.live = L ∧ h.peak = max P (L + roBytes T s.r s.n) := by
  have hK : laneBytes T s.r ≤ mixBytes T s.r := by rw [mixBytes]; omega
  have hroB : roBytes T s.r s.n = s.n * T.vecSize + (s.n * laneBytes T s.r + laneBytes T s.r) + mixBytes T s.r := by
    rw [roBytes, Nat.add_mul, Nat.one_mul]
  rw [hroB]
  clear hroB
  unfold ro_mix
  refine Post.lift fun _ _ => Post.take <| Post.bind (Post.forRange s.n _ (fun i (p : List (List Block) × List Block) h =>
    p.1.length = i ∧ (∀ x ∈ p.1, Shape s.r x) ∧ Shape s.r p.2 ∧
    h.live = L + (s.n * T.vecSize : Nat) + (i * laneBytes T s.r : Nat) ∧
    h.peak = if i = 0 then max P (L + (s.n * T.vecSize : Nat))
      else max P (L + (s.n * T.vecSize : Nat) + ((i - 1) * laneBytes T s.r : Nat) + (mixBytes T s.r : Nat)))
    _ _ ⟨rfl, by simp, hb, by simp, rfl⟩ ?_) ?_
  · rintro i _ ⟨v, x⟩ L' P' hi ⟨h1, h2, h3, h4, h5⟩
    change v.length = i at h1
    change L' = _ at h4
    change P' = _ at h5
    refine Post.bind (block_mix_heap T s x hr h3 hcap L' P') ?_
    rintro t ⟨L'', P''⟩ ⟨i1, i2, i3⟩
    change L'' = _ at i2
    change P'' = _ at i3
    refine Post.pure ⟨by simp [h1], ?_, i1, ?_, ?_⟩
    · intro y hy
      rw [List.mem_append, List.mem_singleton] at hy
      rcases hy with hy | rfl
      · exact h2 y hy
      · exact h3
    · show L'' = _
      rw [i2, h4, Nat.add_mul, Nat.one_mul]
      omega
    · show P'' = _
      rw [if_neg (Nat.succ_ne_zero i), Nat.add_sub_cancel]
      cases i with
      | zero =>
        rw [if_pos rfl] at h5
        rw [Nat.zero_mul] at h4
        rw [i3, h5, h4, Nat.zero_mul]
        omega
      | succ i =>
        rw [if_neg (Nat.succ_ne_zero i), Nat.add_sub_cancel] at h5
        rw [i3, h5, h4, Nat.add_mul, Nat.one_mul]
        omega
  · rintro ⟨v, x⟩ ⟨L', P'⟩ ⟨h1, h2, h3, h4, h5⟩
    change v.length = s.n at h1
    change L' = _ at h4
    change P' = _ at h5
    refine Post.bind (Post.forRange s.n _ (fun i x h => Shape s.r x ∧ h.live = L' ∧
      h.peak = if i = 0 then P' else max P' (L' + laneBytes T s.r + mixBytes T s.r)) _ _ ⟨h3, rfl, rfl⟩ ?_) ?_
    · rintro i _ x L1 P1 hi ⟨j1, j2, j3⟩
      change L1 = _ at j2
      change P1 = _ at j3
      refine Post.lift fun j hj => Post.lift fun vj hvj => ?_
      have hmem : vj ∈ v := by
        unfold idx at hvj
        split at hvj
        · rename_i y hy
          cases hvj
          exact List.mem_of_getElem? hy
        · cases hvj
      have ht := zip_shape s.r x vj j1 (h2 vj hmem)
      refine Post.take <| Post.bind (block_mix_heap T s _ hr ht hcap _ _) ?_
      rintro x' ⟨L2, P2⟩ ⟨i1, i2, i3⟩
      change L2 = _ at i2
      change P2 = _ at i3
      refine Post.give <| Post.give <| Post.pure ⟨i1, ?_, ?_⟩
      · show L2 - _ - _ = _
        rw [bytes_shape T s.r x j1, bytes_shape T s.r _ ht, i2, bytes_shape T s.r _ ht, j2]
        omega
      · show P2 = _
        rw [bytes_shape T s.r _ ht] at i3
        rw [if_neg (Nat.succ_ne_zero i)]
        by_cases h0 : i = 0
        · rw [if_pos h0] at j3; omega
        · rw [if_neg h0] at j3; omega
    · rintro x ⟨L1, P1⟩ ⟨j1, j2, j3⟩
      change L1 = _ at j2
      change P1 = _ at j3
      refine Post.give <| Post.pure ⟨j1, ?_, ?_⟩
      · show L1 - _ = _
        rw [bytes2_shape T s.r v h2, h1, j2, h4]
        omega
      · show P1 = _
        rw [j3, if_neg (by omega), h5, h4, if_neg (by omega)]
        have : (s.n - 1) * laneBytes T s.r ≤ s.n * laneBytes T s.r := Nat.mul_le_mul_right _ (by omega)
        omega

theorem mapM_heap (T : Target) (s : Scrypt) (hr : 1 ≤ s.r) (hn : 1 ≤ s.n) (hcap : 2 * s.r * T.vecSize ≤ T.isizeMax)
    (bs : List (List Block)) (hb : ∀ x ∈ bs, Shape s.r x) (L P : Int) :
    Post (bs.mapM (fun elem => ro_mix T s elem) ⟨L, P⟩) fun ms h => ms.length = bs.length ∧ (∀ x ∈ ms, Shape s.r x) ∧ h.live = L ∧
      h.peak = if bs = [] then P else max P (L + roBytes T s.r s.n) := by
  induction bs generalizing P with
  | nil => exact Post.pure ⟨rfl, by simp, rfl, rfl⟩
  | cons b bs ih =>
    rw [List.mapM_cons]
    refine Post.bind (ro_mix_heap T s b hr hn (hb b (by simp)) hcap L P) ?_
    rintro m ⟨L', P'⟩ ⟨h1, h2, h3⟩
    change L' = _ at h2
    change P' = _ at h3
    subst h2
    refine Post.bind (ih (fun x hx => hb x (by simp [hx])) P') ?_
    rintro ms ⟨L2, P2⟩ ⟨i0, i1, i2, i3⟩
    change L2 = _ at i2
    change P2 = _ at i3
    refine Post.pure ⟨by simp [i0], ?_, i2, ?_⟩
    · intro y hy
      rw [List.mem_cons] at hy
      rcases hy with rfl | hy
      · exact h1
      · exact i1 y hy
    · show P2 = _
      rw [if_neg (List.cons_ne_nil b bs)]
      split at i3 <;> omega

/-- What goes with the octets. -/
def gone (xs : List (U8 × Nat)) : Nat := (xs.map Prod.snd).sum

theorem extend_heap (T : Target) (G : Policy) (lower : Nat → Nat) (hl : ∀ n, lower n ≤ n) (N : Nat) (hN : 8 ≤ N) (xs : List (U8 × Nat)) (v : VecU8)
    (h1 : v.data.length ≤ v.cap) (h2 : v.data.length + xs.length = N) (L P : Int) (hLP : L ≤ P) :
    Post (extend T G lower v xs ⟨L, P⟩) fun w h => h.live = L + w.cap - v.cap - gone xs ∧ P ≤ h.peak ∧ h.peak ≤ max P (L - v.cap + 3 * N) := by
  induction xs generalizing v L P with
  | nil => exact Post.pure ⟨by simp [gone], Int.le_refl _, by show P ≤ _; omega⟩
  | cons p xs ih =>
    obtain ⟨x, g⟩ := p
    rw [List.length_cons] at h2
    have hg : gone ((x, g) :: xs) = g + gone xs := by simp [gone]
    rw [extend]
    refine Post.lift fun v' hv' => ?_
    by_cases hf : v.data.length = v.cap
    · rw [if_pos hf, VecU8.reserve, if_neg (by omega)] at hv'
      have g1 := G.enough v.cap (v.data.length + (lower xs.length + 1))
      have g2 := G.atMost v.cap (v.data.length + (lower xs.length + 1))
      have hlx := hl xs.length
      generalize G.grow v.cap (v.data.length + (lower xs.length + 1)) = c at hv' g1 g2
      have hv : v' = ⟨v.data, c⟩ := by
        cases e : T.reserve 1 c with
        | error _ => rw [e] at hv'; cases hv'
        | ok _ => rw [e] at hv'; cases hv'; rfl
      subst hv
      rw [if_pos (show c ≠ v.cap by omega)]
      refine Post.take <| Post.give <| Post.give ?_
      refine Post.mono (ih ⟨v.data ++ [x], c⟩ (by simp; omega) (by simp; omega) _ _ (by show L + c - v.cap - g ≤ max P (L + c); omega)) ?_
      rintro w L' P' ⟨i1, i2, i3⟩
      change L' = L + c - v.cap - g + w.cap - c - gone xs at i1
      change max P (L + c) ≤ P' at i2
      change P' ≤ max (max P (L + c)) (L + c - v.cap - g - c + 3 * N) at i3
      rw [hg]
      refine ⟨?_, ?_, ?_⟩
      · show L' = _
        omega
      · show P ≤ P'
        omega
      · show P' ≤ _
        omega
    · rw [if_neg hf] at hv'
      cases hv'
      rw [if_neg (by simp)]
      refine Post.give ?_
      refine Post.mono (ih ⟨v.data ++ [x], v.cap⟩ (by simp; omega) (by simp; omega) _ _ (by omega)) ?_
      rintro w L' P' ⟨i1, i2, i3⟩
      change L' = L - g + w.cap - v.cap - gone xs at i1
      change P ≤ P' at i2
      change P' ≤ max P (L - g - v.cap + 3 * N) at i3
      rw [hg]
      refine ⟨?_, i2, ?_⟩
      · show L' = _
        omega
      · show P' ≤ _
        omega

theorem collect_heap (T : Target) (G : Policy) (lower : Nat → Nat) (hl : ∀ n, lower n ≤ n) (xs : List (U8 × Nat)) (hN : 8 ≤ xs.length)
    (L P : Int) (hLP : L ≤ P) :
    Post (collect T G lower xs ⟨L, P⟩) fun w h => h.live = L + w.cap - gone xs ∧ P ≤ h.peak ∧ h.peak ≤ max P (L + 3 * xs.length) := by
  cases xs with
  | nil => simp at hN
  | cons p xs =>
    obtain ⟨x, g⟩ := p
    have hg : gone ((x, g) :: xs) = g + gone xs := by simp [gone]
    rw [List.length_cons] at hN ⊢
    rw [collect]
    have hlx := hl xs.length
    refine Post.lift fun _ _ => Post.take <| Post.give ?_
    refine Post.mono (extend_heap T G lower hl (xs.length + 1) hN xs ⟨[x], max 8 (lower xs.length + 1)⟩ (by simp; omega) (by simp; omega) _ _
      (by omega)) ?_
    generalize hc : max 8 (lower xs.length + 1) = c
    rintro w L' P' ⟨i1, i2, i3⟩
    change L' = L + c - g + w.cap - c - gone xs at i1
    change max P (L + c) ≤ P' at i2
    change P' ≤ max (max P (L + c)) (L + c - g - c + 3 * (xs.length + 1 : Nat)) at i3
    rw [hg]
    refine ⟨?_, ?_, ?_⟩
    · show L' = _
      omega
    · show P ≤ P'
      omega
    · show P' ≤ _
      omega

theorem gone_cons (x : U8) (m : Nat) (b : List (U8 × Nat)) : gone ((x, m) :: b) = m + gone b := by simp [gone]

theorem gone_append (a b : List (U8 × Nat)) : gone (a ++ b) = gone a + gone b := by simp [gone]

theorem blockOctets_gone (more : Nat) (block : Block) (h : block ≠ []) : gone (blockOctets more block) = block.length + more := by
  have key : ∀ (l : List U8) (k n : Nat), l ≠ [] → n = k + l.length →
      gone ((l.zipIdx k).map fun (x, i) => (x, if i + 1 = n then block.length + more else 0)) = block.length + more := by
    intro l
    induction l with
    | nil => intro k n h; exact absurd rfl h
    | cons x l ih =>
      intro k n _ hn
      rw [List.length_cons] at hn
      rw [List.zipIdx_cons, List.map_cons]
      cases l with
      | nil =>
        have : k + 1 = n := by simp at hn; omega
        simp [gone, this]
      | cons y l =>
        have h1 := ih (k + 1) n (by simp) (by omega)
        have : ¬ k + 1 = n := by simp at hn; omega
        rw [gone_cons, if_neg this, Nat.zero_add]
        exact h1
  exact key block 0 block.length h (by omega)

/-- One `more` at the end, and what each element holds. -/
theorem zipIdx_gone {α : Type} (f : Nat → α → List (U8 × Nat)) (size : α → Nat) (more : Nat) (l : List α) (hl : l ≠ [])
    (hf : ∀ x ∈ l, ∀ m, gone (f m x) = size x + m) :
    gone (l.zipIdx.flatMap fun (x, i) => f (if i + 1 = l.length then more else 0) x) = (l.map size).sum + more := by
  have key : ∀ (l : List α) (k n : Nat), l ≠ [] → n = k + l.length → (∀ x ∈ l, ∀ m, gone (f m x) = size x + m) →
      gone ((l.zipIdx k).flatMap fun (x, i) => f (if i + 1 = n then more else 0) x) = (l.map size).sum + more := by
    intro l
    induction l with
    | nil => intro k n h; exact absurd rfl h
    | cons x l ih =>
      intro k n _ hn hf
      rw [List.length_cons] at hn
      rw [List.zipIdx_cons, List.flatMap_cons, gone_append, List.map_cons, List.sum_cons]
      have hx := hf x (by simp)
      cases l with
      | nil =>
        have : k + 1 = n := by simp at hn; omega
        simp only [this, if_true, List.zipIdx_nil, List.flatMap_nil, List.map_nil, List.sum_nil]
        rw [hx]; simp [gone]
      | cons y l =>
        have h1 := ih (k + 1) n (by simp) (by omega) (fun z hz => hf z (by simp [hz]))
        have : ¬ k + 1 = n := by simp at hn; omega
        rw [h1]
        simp only [this, if_false]
        rw [hx]
        omega
  exact key l 0 l.length hl (by omega) hf

theorem laneOctets_gone (T : Target) (more : Nat) (lane : List Block) (h : lane ≠ []) (h64 : ∀ x ∈ lane, x.length = 64) :
    gone (laneOctets T more lane) = bytes T lane + more := by
  unfold laneOctets
  rw [zipIdx_gone (fun m block => blockOctets m block) List.length (lane.length * T.vecSize + more) lane h, bytes]
  · omega
  · intro x hx m
    exact blockOctets_gone m x (by intro h; have := h64 x hx; rw [h] at this; cases this)

theorem octets_gone (T : Target) (r : Nat) (hr : 1 ≤ r) (b : List (List Block)) (hb : b ≠ []) (h : ∀ x ∈ b, Shape r x) :
    gone (octets T b) = bytes2 T b := by
  unfold octets
  rw [zipIdx_gone (fun m lane => laneOctets T m lane) (bytes T) (b.length * T.vecSize) b hb, bytes2]
  · omega
  · intro x hx m
    have := h x hx
    exact laneOctets_gone T m x (by intro e; have h1 := this.1; rw [e] at h1; simp at h1; omega) this.2

theorem octets_length (T : Target) (r : Nat) (b : List (List Block)) (h : ∀ x ∈ b, Shape r x) :
    (octets T b).length = b.length * (128 * r) := by
  have : (octets T b).length = ((octets T b).map Prod.fst).length := by simp
  rw [this, octets_fst]
  clear this
  induction b with
  | nil => simp
  | cons x b ih =>
    have hx := h x (by simp)
    rw [List.flatten_cons, List.flatten_append, List.length_append, ih (fun y hy => h y (by simp [hy])), flatten_length _ hx.2, hx.1,
      List.length_cons, Nat.add_mul]
    omega

/-- What `derive` has taken while it mixes. -/
def deriveBytes (T : Target) (inPlace : Bool) (r n p : Nat) : Nat :=
  p * 128 * r + (p * T.vecSize + p * laneBytes T r) + (if inPlace then 0 else p * T.vecSize) + roBytes T r n

/-- And when it puts the lanes together, at most. -/
def joinBytes (T : Target) (r p : Nat) : Nat :=
  p * 128 * r + (p * T.vecSize + p * laneBytes T r) + 3 * (p * 128 * r)

/-- The heap before it does so. -/
def beforeJoin (T : Target) (inPlace : Bool) (r n p : Nat) (L P : Int) : Heap :=
  ⟨L + (p * 128 * r + (p * T.vecSize + p * laneBytes T r) : Nat), max P (L + deriveBytes T inPlace r n p)⟩

theorem derive_heap (T : Target) (G : Policy) (lower : Nat → Nat) (hl : ∀ n, lower n ≤ n) (inPlace : Bool) (s : Scrypt) (P0 S out : List U8)
    (hr : 1 ≤ s.r) (hn : ∃ k, s.n = 2 ^ k) (hp : 1 ≤ s.p) (hmem : s.p * 128 * s.r ≤ T.isizeMax) (L P : Int) (hLP : L ≤ P) :
    Post (derive T G lower inPlace s P0 S out ⟨L, P⟩) fun _ h => h.live = L ∧ max P (L + deriveBytes T inPlace s.r s.n s.p) ≤ h.peak ∧
      h.peak ≤ max P (L + max (deriveBytes T inPlace s.r s.n s.p) (joinBytes T s.r s.p)) ∧
      ∃ ms w h', ms.length = s.p ∧ (∀ x ∈ ms, Shape s.r x) ∧ h'.peak = h.peak ∧
        collect T G lower (octets T ms) (beforeJoin T inPlace s.r s.n s.p L P) = .ok (w, h') := by
  have hn1 : 1 ≤ s.n := by obtain ⟨k, h⟩ := hn; rw [h]; exact Nat.two_pow_pos k
  have hlt : s.p * 128 * s.r < 2 ^ T.bits := Nat.lt_of_le_of_lt hmem (isizeMax_lt T)
  have hcs := Verif.Props.Scrypt.chunk_lt T s.p s.r hp hlt
  have hq : s.p * 128 * s.r / (128 * s.r) = s.p := by rw [Nat.mul_assoc, Nat.mul_div_cancel _ (by omega)]
  have h128 : 128 * s.r ≤ s.p * 128 * s.r := by
    rw [Nat.mul_assoc]; exact Nat.le_mul_of_pos_left _ (by omega)
  have hcap : 2 * s.r * T.vecSize ≤ T.isizeMax := by
    have h2 : 2 * s.r * T.vecSize ≤ 2 * s.r * 24 := Nat.mul_le_mul_left _ (vecSize_le T)
    omega
  unfold derive
  rw [if_neg (by omega), if_neg (by omega)]
  refine Post.lift fun m hm => ?_
  rw [T.sub_ok hn1] at hm
  cases hm
  rw [if_neg (by rw [Decidable.not_not]; exact (n_pow _ hn1).mpr hn), if_neg (by omega)]
  refine Post.lift fun size hsize => ?_
  have he := size_ok T s.p s.r hr (.inr hlt)
  rw [Nat.mod_eq_of_lt hlt] at he
  have hsz : size = s.p * 128 * s.r := by
    rw [he] at hsize; cases hsize; rfl
  subst hsz
  refine Post.lift fun _ _ => Post.take <| Post.lift fun raw hraw => ?_
  have hraw : raw.length = s.p * 128 * s.r := by
    rw [Verif.Counted.pbkdf2_length T P0 S _ _ _ hraw, List.length_replicate]
  refine Post.lift fun bs hbs => ?_
  rw [T.mul_ok (show 2 * Scrypt.BLOCK_SIZE * s.r < _ from hcs), ok_bind,
    show 2 * Scrypt.BLOCK_SIZE * s.r = 128 * s.r from rfl, chunksExact_ok _ _ (by omega), ok_bind, hraw, hq,
    mapM_ok _ _ (fun chunk => (List.range (chunk.length / 64)).map fun i => (chunk.drop (64 * i)).take 64)
      (fun x _ => chunksExact_ok x 64 (by decide))] at hbs
  injection hbs with hbs
  have hsh : ∀ x ∈ bs, Shape s.r x := by
    intro x hx
    rw [← hbs, List.mem_map] at hx
    obtain ⟨c, hc, rfl⟩ := hx
    rw [List.mem_map] at hc
    obtain ⟨i, hi, rfl⟩ := hc
    rw [List.mem_range] at hi
    apply blocks_shape
    rw [List.length_take, List.length_drop, hraw]
    have : 128 * s.r * i + 128 * s.r ≤ s.p * 128 * s.r := by
      calc 128 * s.r * i + 128 * s.r = 128 * s.r * (i + 1) := by rw [Nat.mul_succ]
        _ ≤ 128 * s.r * s.p := Nat.mul_le_mul_left _ hi
        _ = s.p * 128 * s.r := by rw [Nat.mul_comm (128 * s.r) s.p, Nat.mul_assoc]
    omega
  have hbl : bs.length = s.p := by rw [← hbs]; simp
  clear hbs
  have hb0 : bs ≠ [] := by intro h; rw [h] at hbl; simp at hbl; omega
  refine Post.take <| Post.take <| Post.bind (mapM_heap T s hr hn1 hcap bs hsh _ _) ?_
  rintro ms ⟨L1, P1⟩ ⟨m0, m1, m2, m3⟩
  change L1 = _ at m2
  change P1 = _ at m3
  rw [if_neg hb0] at m3
  have hm0 : ms ≠ [] := by intro h; rw [h, hbl] at m0; simp at m0; omega
  have hlen := octets_length T s.r ms m1
  have hgone := octets_gone T s.r hr ms hm0 m1
  rw [bytes2_shape T s.r ms m1, m0, hbl] at hgone
  rw [m0, hbl, ← Nat.mul_assoc] at hlen
  rw [bytes2_shape T s.r bs hsh, hbl] at m2 m3
  simp only [hbl]
  have hbuf : (if inPlace = true then 0 else s.p * T.vecSize) ≤ s.p * T.vecSize := by split <;> omega
  rw [beforeJoin, deriveBytes, joinBytes]
  generalize (if inPlace = true then 0 else s.p * T.vecSize) = buf at *
  generalize s.p * T.vecSize + s.p * laneBytes T s.r = B at *
  generalize roBytes T s.r s.n = R at *
  generalize s.p * 128 * s.r = Z at *
  refine Post.give <| Post.bind_eq (collect_heap T G lower hl (octets T ms) (by omega) _ _ (by omega)) ?_
  rintro w ⟨L2, P2⟩ c0 ⟨c1, c2, c3⟩
  change L2 = _ at c1
  change _ ≤ P2 at c2
  change P2 ≤ _ at c3
  refine Post.lift fun out' _ => Post.give <| Post.give <| Post.pure ⟨?_, ?_, ?_, ms, w, ⟨L2, P2⟩, m0.trans hbl, m1, rfl, ?_⟩
  · show L2 - w.cap - Z = L
    omega
  · show _ ≤ P2
    omega
  · show P2 ≤ _
    rw [hlen] at c3
    omega
  · rw [← c0]
    congr 2 <;> omega

end Verif.Heap
