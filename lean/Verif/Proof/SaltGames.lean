import Verif.Spec.SaltGames
import Verif.Proof.SealGames
import Mathlib.Logic.Equiv.Fin.Basic
import Mathlib.Data.List.GetD

/-!
Boxes with salts: an attacker on boxes with salts of its choice is one on the derivation of keys, or one on the boxes with one of the salts.
-/

namespace Spec.SaltGames
open Spec Spec.Games
open Spec.SealGames (Reply reply ciphertextSize avg_cons)

attribute [local irreducible] avg

/-- The sizes of ciphertexts and tags. -/
def Boxes.Sized (B : Boxes) (len : Nat) (okM : List Byte → Prop) : Prop := ∀ dk : List Byte, dk.length = len → ∀ iv m, okM m →
  (B.enc dk iv m).length = ciphertextSize m ∧ (B.mac dk iv (B.enc dk iv m)).length = 32

theorem Boxes.Sized.side {B : Boxes} {len : Nat} {okM : List Byte → Prop} (hB : B.Sized len okM) {dk : List Byte} (hdk : dk.length = len)
    (iv : Block) {l r : List Byte} (hl : okM l) (hr : okM r) (hlr : l.length / 16 = r.length / 16) (right : Bool) :
    (B.enc dk iv (if right then r else l)).length = ciphertextSize l ∧ (B.mac dk iv (B.enc dk iv (if right then r else l))).length = 32 := by
  cases right with
  | false => exact hB dk hdk iv l hl
  | true => exact ⟨(hB dk hdk iv r hr).1.trans (by rw [ciphertextSize, ciphertextSize, hlr]), (hB dk hdk iv r hr).2⟩

/-! ### Askers -/

/-- What an asker says when the octets are derived by `keys`. -/
def Asker.real (keys : List Byte → List Byte) : Asker → ℚ
  | .answer yes => if yes then 1 else 0
  | .ask salt next => (next (keys salt)).real keys

/-- The chance that it says yes when the octets are random. -/
def Asker.ideal (len : Nat) : Asker → ℚ
  | .answer yes => if yes then 1 else 0
  | .ask _ next => avg fun dk : List.Vector Byte len => (next dk.toList).ideal len

/-- It asks at most `q` questions, about different salts. -/
def Asker.Within (ok : List Byte → Prop) : (used : List (List Byte)) → (q : Nat) → Asker → Prop
  | _, _, .answer _ => True
  | used, q, .ask salt next => ok salt ∧ salt ∉ used ∧ 1 ≤ q ∧ ∀ dk, (next dk).Within ok (salt :: used) (q - 1)

theorem real_pbkdf2 (kdf : List Byte → Nat → Nat → List Byte) (c len : Nat) (a : Asker) :
    KeyGames.real kdf (a.pbkdf2 c len) = a.real fun salt => kdf salt c len := by
  induction a with
  | answer yes => rfl
  | ask salt next ih => exact ih _

theorem ideal_pbkdf2 (c len : Nat) (a : Asker) : KeyGames.ideal (a.pbkdf2 c len) = a.ideal len := by
  induction a with
  | answer yes => rfl
  | ask salt next ih =>
    rw [Asker.pbkdf2, KeyGames.ideal, Asker.ideal]
    exact congrArg avg (funext fun dk => ih _)

theorem within_pbkdf2 (c len : Nat) (hc : 1 ≤ c) (hlen : len ≤ (2 ^ 32 - 1) * 32) {ok : List Byte → Nat → Nat → Prop} (a : Asker)
    (used : List (List Byte)) (q : Nat) (h : a.Within (fun salt => ok salt c len) used q) :
    (a.pbkdf2 c len).Within ok used (c * KeyGames.count len * q) := by
  induction a generalizing used q with
  | answer yes => trivial
  | ask salt next ih =>
    obtain ⟨h1, h2, h3, h4⟩ := h
    obtain ⟨q, rfl⟩ := Nat.exists_eq_add_of_le' h3
    refine ⟨h1, h2, hc, hlen, by rw [Nat.mul_succ]; omega, fun dk => ?_⟩
    have := ih dk _ _ (h4 dk)
    rw [Nat.mul_succ, Nat.add_sub_cancel]
    exact this

theorem real_scrypt (kdf : List Byte → Nat → List Byte) (len : Nat) (a : Asker) :
    ScryptGames.real kdf (a.scrypt len) = a.real fun salt => kdf salt len := by
  induction a with
  | answer yes => rfl
  | ask salt next ih => exact ih _

theorem ideal_scrypt (len : Nat) (a : Asker) : ScryptGames.ideal (a.scrypt len) = a.ideal len := by
  induction a with
  | answer yes => rfl
  | ask salt next ih =>
    rw [Asker.scrypt, ScryptGames.ideal, Asker.ideal]
    exact congrArg avg (funext fun dk => ih _)

theorem within_scrypt (P : ScryptGames.Params) (len : Nat) (hlen : len ≤ (2 ^ 32 - 1) * 32) {ok : List Byte → Nat → Prop} (a : Asker)
    (used : List (List Byte)) (q : Nat) (h : a.Within (fun salt => ok salt len) used q) : (a.scrypt len).Within P ok used q := by
  induction a generalizing used q with
  | answer yes => trivial
  | ask salt next ih => exact ⟨h.1, h.2.1, hlen, h.2.2.1, fun dk => ih dk _ _ (h.2.2.2 dk)⟩

theorem getD_mem {α : Type} (l : List α) (d : α) (i : Nat) (h : i < l.length) : l.getD i d ∈ l := by
  rw [List.getD_eq_getElem _ _ h]
  exact List.getElem_mem h

theorem derived_within {ok : List Byte → Prop} {len : Nat} {salts got : List (List Byte)} (hgot : got.length = salts.length)
    (hl : ∀ dk ∈ got, dk.length = len) {salt : List Byte} (hsalt : ok salt)
    {next : List Byte → List (List Byte) → List (List Byte) → Asker} {used : List (List Byte)} (hused : ∀ s ∈ used, s ∈ salts) {s : Nat}
    (h : ∀ dk salts' got' used', dk.length = len → got'.length = salts'.length → (∀ dk ∈ got', dk.length = len) → (∀ s ∈ used', s ∈ salts') →
      (next dk salts' got').Within ok used' s) (hmono : ∀ (a : Asker) used, a.Within ok used s → a.Within ok used (s + 1)) :
    (Asker.derived len salts got salt next).Within ok used (s + 1) := by
  unfold Asker.derived
  split
  · rename_i hm
    exact hmono _ _ (h _ _ _ _ (hl _ (getD_mem _ _ _ (by rw [hgot]; exact List.idxOf_lt_length_of_mem hm))) hgot hl hused)
  · rename_i hm
    refine ⟨hsalt, fun hu => hm (hused _ hu), by omega, fun dk => ?_⟩
    dsimp only
    split
    · rename_i hdk
      refine h _ _ _ _ hdk (by simp [hgot]) (fun x hx => ?_) (fun x hx => ?_)
      · rcases List.mem_append.1 hx with hx | hx
        · exact hl x hx
        · rw [List.mem_singleton.1 hx]; exact hdk
      · rcases List.mem_cons.1 hx with rfl | hx
        · simp
        · exact List.mem_append_left _ (hused x hx)
    · trivial

theorem Asker.Within.mono {ok : List Byte → Prop} (a : Asker) (used : List (List Byte)) {q q' : Nat} (hq : q ≤ q') (h : a.Within ok used q) :
    a.Within ok used q' := by
  induction a generalizing used q q' with
  | answer yes => trivial
  | ask salt next ih => exact ⟨h.1, h.2.1, h.2.2.1.trans hq, fun dk => ih dk _ (Nat.sub_le_sub_right hq 1) (h.2.2.2 dk)⟩

theorem Asker.Within.imp {ok ok' : List Byte → Prop} (hok : ∀ salt, ok salt → ok' salt) (a : Asker) (used : List (List Byte)) (q : Nat)
    (h : a.Within ok used q) : a.Within ok' used q := by
  induction a generalizing used q with
  | answer yes => trivial
  | ask salt next ih => exact ⟨hok _ h.1, h.2.1, h.2.2.1, fun dk => ih dk _ _ (h.2.2.2 dk)⟩

theorem asker_within {B : Boxes} {len : Nat} (right : Bool) {okS okM okB : List Byte → Prop} (hB : B.Sized len okM) (a : Attacker)
    (n q v : Nat) (ha : a.Within okS okM okB n q v) (ivs : List Block) (salts got : List (List Byte)) (hgot : got.length = salts.length)
    (hl : ∀ dk ∈ got, dk.length = len) (seen : List (List Byte × Block × List Byte × List Byte)) (used : List (List Byte))
    (hused : ∀ s ∈ used, s ∈ salts) : (a.asker B len right ivs salts got seen).Within okS used (q + v) := by
  induction a generalizing n q v ivs salts got seen used with
  | answer yes => cases ivs <;> trivial
  | send salt l r next ih =>
    cases ivs with
    | nil => trivial
    | cons iv ivs =>
      obtain ⟨hs, hl', hr, hlr, -, hq, hn⟩ := ha
      obtain ⟨q, rfl⟩ := Nat.exists_eq_add_of_le' hq
      rw [show q + 1 + v = q + v + 1 by omega, Attacker.asker]
      refine derived_within hgot hl hs hused (fun dk salts' got' used' hdk hgot' hgl hu => ?_) (fun a used => Asker.Within.mono a used (by omega))
      have hc := hB.side hdk iv hl' hr hlr right
      exact ih _ _ _ _ _ _ (hn _ _ _ hc.1 hc.2) ivs salts' got' hgot' hgl _ used' hu
  | submit salt iv c tag next ih =>
    obtain ⟨hs, -, hv, hn⟩ := ha
    obtain ⟨v, rfl⟩ := Nat.exists_eq_add_of_le' hv
    rw [show q + (v + 1) = q + v + 1 by omega]
    cases ivs <;> rw [Attacker.asker] <;>
      exact derived_within hgot hl hs hused (fun dk salts' got' used' hdk hgot' hgl hu => ih _ _ _ _ (hn _) _ salts' got' hgot' hgl _ used' hu)
        (fun a used => Asker.Within.mono a used (by omega))

theorem getD_idxOf (salts : List (List Byte)) (keys : List Byte → List Byte) (salt : List Byte) (h : salt ∈ salts) (d : List Byte) :
    (salts.map keys).getD (salts.idxOf salt) d = keys salt := by
  have hi := List.idxOf_lt_length_of_mem h
  rw [List.getD_eq_getElem _ _ (by simpa using hi), List.getElem_map, List.getElem_idxOf hi]

theorem derived_real {len : Nat} (salts : List (List Byte)) (keys : List Byte → List Byte) (salt : List Byte) (hk : (keys salt).length = len)
    (next : List Byte → List (List Byte) → List (List Byte) → Asker) :
    (Asker.derived len salts (salts.map keys) salt next).real keys =
      (next (keys salt) (note salts salt) ((note salts salt).map keys)).real keys := by
  unfold Asker.derived note
  split
  · rename_i h
    rw [getD_idxOf _ _ _ h]
  · rw [Asker.real, if_pos hk, List.map_append]
    rfl

/-- The boxes made by the asker itself, of what is derived from the password, are those the attacker gets. -/
theorem real_eq_asker {B : Boxes} {len : Nat} (right : Bool) {okS okM okB : List Byte → Prop} (hB : B.Sized len okM)
    (keys : List Byte → List Byte) (hk : ∀ salt, okS salt → (keys salt).length = len) (a : Attacker) (n q v : Nat)
    (ha : a.Within okS okM okB n q v) (salts : List (List Byte)) (seen : List (List Byte × Block × List Byte × List Byte)) :
    real B keys right seen a = avg fun ivs : List.Vector Block q => (a.asker B len right ivs.toList salts (salts.map keys) seen).real keys := by
  induction a generalizing n q v salts seen with
  | answer yes =>
    rw [real, ← avg_const (α := List.Vector Block q) (if yes then 1 else 0)]
    refine congrArg avg (funext fun ivs => ?_)
    cases ivs.toList <;> rfl
  | send salt l r next ih =>
    obtain ⟨hs, hl, hr, hlr, -, hq, hn⟩ := ha
    obtain ⟨q, rfl⟩ := Nat.exists_eq_add_of_le' hq
    rw [avg_cons q fun ivs => ((Attacker.send salt l r next).asker B len right ivs salts (salts.map keys) seen).real keys, real]
    refine congrArg avg (funext fun iv => ?_)
    have hc := hB.side (hk salt hs) iv hl hr hlr right
    refine (ih _ _ _ _ _ _ (hn _ _ _ hc.1 hc.2) (note salts salt) _).trans (congrArg avg (funext fun ivs => ?_))
    rw [Attacker.asker, derived_real _ _ _ (hk salt hs)]
  | submit salt iv c tag next ih =>
    obtain ⟨hs, -, -, hn⟩ := ha
    rw [real, ih _ _ _ _ (hn _) (note salts salt)]
    refine congrArg avg (funext fun ivs => ?_)
    cases ivs.toList <;> rw [Attacker.asker, derived_real _ _ _ (hk salt hs)]

/-! ### Random octets -/

/-- The game with the octets `D i` for salt number `i`, in which the boxes with that salt have the right messages if `side i`. -/
def hybrid (B : Boxes) (D : Nat → List Byte) (side : Nat → Bool) :
    (salts : List (List Byte)) → (seen : List (List Byte × Block × List Byte × List Byte)) → Attacker → ℚ
  | _, _, .answer yes => if yes then 1 else 0
  | salts, seen, .send salt l r next => avg fun iv : Block =>
      let dk := D (salts.idxOf salt)
      let c := B.enc dk iv (if side (salts.idxOf salt) then r else l)
      hybrid B D side (note salts salt) ((salt, iv, c, B.mac dk iv c) :: seen) (next iv c (B.mac dk iv c))
  | salts, seen, .submit salt iv c tag next =>
      let dk := D (salts.idxOf salt)
      hybrid B D side (note salts salt) seen (next (if (salt, iv, c, tag) ∈ seen then .refused else reply (B.mac dk) (B.dec dk) iv c tag))

theorem note_length (salts : List (List Byte)) (salt : List Byte) : (note salts salt).length ≤ salts.length + 1 := by
  unfold note
  split <;> simp

theorem mem_note (salts : List (List Byte)) (salt : List Byte) : salt ∈ note salts salt := by
  unfold note
  split <;> simp_all

theorem mem_note_of_mem {salts : List (List Byte)} (salt : List Byte) {s : List Byte} (h : s ∈ salts) : s ∈ note salts salt := by
  unfold note
  split <;> simp_all

theorem idxOf_note {salts : List (List Byte)} (salt : List Byte) {s : List Byte} (h : s ∈ salts) : (note salts salt).idxOf s = salts.idxOf s := by
  unfold note
  split
  · rfl
  · exact List.idxOf_append_of_mem h

theorem idxOf_note_self (salts : List (List Byte)) (salt : List Byte) : (note salts salt).idxOf salt = salts.idxOf salt := by
  unfold note
  split
  · rfl
  · rename_i h
    rw [List.idxOf_append_of_notMem h, List.idxOf_eq_length h]
    simp

/-- Sides of salts that are not used do not matter. -/
theorem hybrid_side {B : Boxes} {len : Nat} {okS okM okB : List Byte → Prop} (hB : B.Sized len okM) (D : Nat → List Byte)
    (hD : ∀ i, (D i).length = len) (side side' : Nat → Bool) (s : Nat) (hside : ∀ i < s, side i = side' i) (a : Attacker)
    (n q v : Nat) (ha : a.Within okS okM okB n q v) (salts : List (List Byte)) (hs : salts.length + (q + v) ≤ s)
    (seen : List (List Byte × Block × List Byte × List Byte)) : hybrid B D side salts seen a = hybrid B D side' salts seen a := by
  induction a generalizing n q v salts seen with
  | answer yes => rfl
  | send salt l r next ih =>
    obtain ⟨-, hl, hr, hlr, -, hq, hn⟩ := ha
    have hi : side (salts.idxOf salt) = side' (salts.idxOf salt) := hside _ (lt_of_le_of_lt List.idxOf_le_length (by omega))
    rw [hybrid, hybrid]
    refine congrArg avg (funext fun iv => ?_)
    have hc := hB.side (hD (salts.idxOf salt)) iv hl hr hlr (side' (salts.idxOf salt))
    rw [hi]
    have := note_length salts salt
    exact ih _ _ _ _ _ _ (hn _ _ _ hc.1 hc.2) _ (by omega) _
  | submit salt iv c tag next ih =>
    have := note_length salts salt
    have := ha.2.2.1
    rw [hybrid, hybrid]
    exact ih _ _ _ _ (ha.2.2.2 _) _ (by omega) _

theorem nth_append_left {len : Nat} (l l' : List (List.Vector Byte len)) (i : Nat) (h : i < l.length) : nth len (l ++ l') i = nth len l i := by
  unfold nth
  rw [List.getD_append _ _ _ _ h]

theorem nth_length {len : Nat} (l : List (List.Vector Byte len)) (i : Nat) : (nth len l i).length = len := List.Vector.toList_length _

theorem derived_ideal {ι : Type} [Fintype ι] [Nonempty ι] {len : Nat} (salts : List (List Byte)) (got : List (List.Vector Byte len))
    (hgot : got.length = salts.length) (salt : List Byte) (next : ι → List Byte → List (List Byte) → List (List Byte) → Asker) (s : Nat)
    (F : (Nat → List Byte) → ℚ)
    (h : ∀ (s' : Nat) (got' : List (List.Vector Byte len)), s ≤ s' → got'.length = (note salts salt).length →
      (avg fun ivs => (next ivs (nth len got' (salts.idxOf salt)) (note salts salt) (got'.map List.Vector.toList)).ideal len) =
        avg fun rest : List.Vector (List.Vector Byte len) s' => F (nth len (got' ++ rest.toList))) :
    (avg fun ivs => (Asker.derived len salts (got.map List.Vector.toList) salt (next ivs)).ideal len) =
      avg fun rest : List.Vector (List.Vector Byte len) (s + 1) => F (nth len (got ++ rest.toList)) := by
  unfold Asker.derived
  by_cases hm : salt ∈ salts
  · have hn : note salts salt = salts := if_pos hm
    have hi : salts.idxOf salt < got.length := by rw [hgot]; exact List.idxOf_lt_length_of_mem hm
    rw [hn] at h
    rw [← h _ got (Nat.le_succ s) hgot, nth, List.getD_eq_getElem _ _ hi]
    refine congrArg avg (funext fun ivs => ?_)
    rw [if_pos hm, List.getD_eq_getElem _ _ (by simpa using hi), List.getElem_map]
  · have hn : note salts salt = salts ++ [salt] := if_neg hm
    rw [hn] at h
    rw [avg_cons s fun rest => F (nth len (got ++ rest))]
    simp only [if_neg hm, Asker.ideal, List.Vector.toList_length, if_true]
    rw [avg_comm]
    refine congrArg avg (funext fun dk => ?_)
    have := h s (got ++ [dk]) le_rfl (by simp [hgot])
    rw [List.idxOf_eq_length hm, ← hgot, List.map_append] at this
    have he : nth len (got ++ [dk]) got.length = dk.toList := by simp [nth]
    rw [he] at this
    refine this.trans (congrArg avg (funext fun rest => ?_))
    rw [List.append_assoc]
    rfl

instance {n : Nat} : Nonempty (List.Vector Block n) := ⟨List.Vector.replicate n (List.Vector.replicate 16 0)⟩

instance {n len : Nat} : Nonempty (List.Vector (List.Vector Byte len) n) := ⟨List.Vector.replicate n (List.Vector.replicate len 0)⟩

theorem idxOf_lt_note (salts : List (List Byte)) (salt : List Byte) : salts.idxOf salt < (note salts salt).length := by
  rw [← idxOf_note_self]
  exact List.idxOf_lt_length_of_mem (mem_note _ _)

/-- With random octets for every salt: they may be drawn beforehand. -/
theorem ideal_asker {B : Boxes} {len : Nat} (right : Bool) {okS okM okB : List Byte → Prop} (hB : B.Sized len okM) (a : Attacker) (n q v s : Nat)
    (ha : a.Within okS okM okB n q v) (hs : q + v ≤ s) (salts : List (List Byte)) (got : List (List.Vector Byte len))
    (hgot : got.length = salts.length) (seen : List (List Byte × Block × List Byte × List Byte)) :
    (avg fun ivs : List.Vector Block q => (a.asker B len right ivs.toList salts (got.map List.Vector.toList) seen).ideal len) =
      avg fun rest : List.Vector (List.Vector Byte len) s => hybrid B (nth len (got ++ rest.toList)) (fun _ => right) salts seen a := by
  induction a generalizing n q v s salts got seen with
  | answer yes =>
    simp only [hybrid]
    rw [avg_const, ← avg_const (α := List.Vector Block q) (if yes then 1 else 0)]
    refine congrArg avg (funext fun ivs => ?_)
    cases ivs.toList <;> rfl
  | send salt l r next ih =>
    obtain ⟨-, hl, hr, hlr, -, hq, hn⟩ := ha
    obtain ⟨q, rfl⟩ := Nat.exists_eq_add_of_le' hq
    obtain ⟨s, rfl⟩ := Nat.exists_eq_add_of_le' (show 1 ≤ s by omega)
    rw [avg_cons q fun ivs => ((Attacker.send salt l r next).asker B len right ivs salts (got.map List.Vector.toList) seen).ideal len]
    simp only [Attacker.asker, hybrid]
    rw [avg_comm (α := List.Vector (List.Vector Byte len) (s + 1))]
    refine congrArg avg (funext fun iv => ?_)
    refine derived_ideal salts got hgot salt (fun (ivs : List.Vector Block q) dk salts got => (next iv (B.enc dk iv (if right then r else l))
      (B.mac dk iv (B.enc dk iv (if right then r else l)))).asker B len right ivs.toList salts got
        ((salt, iv, B.enc dk iv (if right then r else l), B.mac dk iv (B.enc dk iv (if right then r else l))) :: seen)) s
      (fun D => hybrid B D (fun _ => right) (note salts salt) ((salt, iv, B.enc (D (salts.idxOf salt)) iv (if right then r else l),
        B.mac (D (salts.idxOf salt)) iv (B.enc (D (salts.idxOf salt)) iv (if right then r else l))) :: seen)
        (next iv (B.enc (D (salts.idxOf salt)) iv (if right then r else l))
          (B.mac (D (salts.idxOf salt)) iv (B.enc (D (salts.idxOf salt)) iv (if right then r else l))))) (fun s' got' hs' hg => ?_)
    have hc := hB.side (nth_length got' (salts.idxOf salt)) iv hl hr hlr right
    refine (ih _ _ _ _ _ _ _ (hn _ _ _ hc.1 hc.2) (by omega) _ got' hg _).trans (congrArg avg (funext fun rest => ?_))
    rw [nth_append_left _ _ _ (by rw [hg]; exact idxOf_lt_note salts salt)]
  | submit salt iv c tag next ih =>
    obtain ⟨-, -, hv, hn⟩ := ha
    obtain ⟨v, rfl⟩ := Nat.exists_eq_add_of_le' hv
    obtain ⟨s, rfl⟩ := Nat.exists_eq_add_of_le' (show 1 ≤ s by omega)
    have he (ivs : List.Vector Block q) : (Attacker.submit salt iv c tag next).asker B len right ivs.toList salts
        (got.map List.Vector.toList) seen = .derived len salts (got.map List.Vector.toList) salt fun dk salts got =>
          (next (if (salt, iv, c, tag) ∈ seen then .refused else reply (B.mac dk) (B.dec dk) iv c tag)).asker B len right ivs.toList
            salts got seen := by
      cases ivs.toList <;> rfl
    simp only [he, hybrid]
    refine derived_ideal salts got hgot salt (fun (ivs : List.Vector Block q) dk salts got => (next (if (salt, iv, c, tag) ∈ seen then .refused
      else reply (B.mac dk) (B.dec dk) iv c tag)).asker B len right ivs.toList salts got seen) s
      (fun D => hybrid B D (fun _ => right) (note salts salt) seen (next (if (salt, iv, c, tag) ∈ seen then .refused
        else reply (B.mac (D (salts.idxOf salt))) (B.dec (D (salts.idxOf salt))) iv c tag))) (fun s' got' hs' hg => ?_)
    refine (ih _ _ _ _ _ (hn _) (by omega) _ got' hg _).trans (congrArg avg (funext fun rest => ?_))
    rw [nth_append_left _ _ _ (by rw [hg]; exact idxOf_lt_note salts salt)]

/-! ### One salt -/

theorem within_mono {okM okB : List Byte → Prop} (a : SealGames.Attacker) {n n' q q' v v' : Nat} (hn : n ≤ n') (hq : q ≤ q') (hv : v ≤ v')
    (h : a.Within okM okB n q v) : a.Within okM okB n' q' v' := by
  induction a generalizing n n' q q' v v' with
  | answer yes => trivial
  | send l r next ih =>
    obtain ⟨h1, h2, h3, h4, h5, h6⟩ := h
    exact ⟨h1, h2, h3, h4.trans hn, h5.trans hq, fun iv c tag hc ht => ih _ _ _ (by omega) (by omega) hv (h6 iv c tag hc ht)⟩
  | submit iv c tag next ih =>
    obtain ⟨h1, h2, h3⟩ := h
    exact ⟨h1, h2.trans hv, fun r => ih _ hn hq (by omega) (h3 r)⟩

section focus

variable {B : Boxes} {j : Nat} {D : Nat → List Byte} {salts : List (List Byte)} {seen : List (List Byte × Block × List Byte × List Byte)}
  {salt l r : List Byte}

theorem focus_send_here (ivs : List Block) {next : Block → List Byte → List Byte → Attacker} (h : salts.idxOf salt = j) :
    (Attacker.send salt l r next).focus B j D ivs salts seen =
      .send l r fun iv c tag => (next iv c tag).focus B j D ivs (note salts salt) ((salt, iv, c, tag) :: seen) := by
  rw [Attacker.focus.eq_def]
  exact if_pos h

theorem focus_send_nil {next : Block → List Byte → List Byte → Attacker} (h : ¬salts.idxOf salt = j) :
    (Attacker.send salt l r next).focus B j D [] salts seen = .answer false := by
  rw [Attacker.focus.eq_def]
  exact if_neg h

theorem focus_send_there (iv : Block) (ivs : List Block) {next : Block → List Byte → List Byte → Attacker} (h : ¬salts.idxOf salt = j) :
    (Attacker.send salt l r next).focus B j D (iv :: ivs) salts seen =
      (next iv (B.enc (D (salts.idxOf salt)) iv (if salts.idxOf salt < j then r else l))
        (B.mac (D (salts.idxOf salt)) iv (B.enc (D (salts.idxOf salt)) iv (if salts.idxOf salt < j then r else l)))).focus B j D ivs
        (note salts salt) ((salt, iv, B.enc (D (salts.idxOf salt)) iv (if salts.idxOf salt < j then r else l),
          B.mac (D (salts.idxOf salt)) iv (B.enc (D (salts.idxOf salt)) iv (if salts.idxOf salt < j then r else l))) :: seen) := by
  rw [Attacker.focus.eq_def]
  exact if_neg h

theorem focus_submit_here (ivs : List Block) {iv : Block} {c tag : List Byte} {next : Reply → Attacker} (h : salts.idxOf salt = j) :
    (Attacker.submit salt iv c tag next).focus B j D ivs salts seen =
      .submit iv c tag fun r => (next r).focus B j D ivs (note salts salt) seen := by
  rw [Attacker.focus.eq_def]
  exact if_pos h

theorem focus_submit_there (ivs : List Block) {iv : Block} {c tag : List Byte} {next : Reply → Attacker} (h : ¬salts.idxOf salt = j) :
    (Attacker.submit salt iv c tag next).focus B j D ivs salts seen = (next (if (salt, iv, c, tag) ∈ seen then .refused else
      reply (B.mac (D (salts.idxOf salt))) (B.dec (D (salts.idxOf salt))) iv c tag)).focus B j D ivs (note salts salt) seen := by
  rw [Attacker.focus.eq_def]
  exact if_neg h

end focus

theorem focus_within {B : Boxes} {len : Nat} (j : Nat) (D : Nat → List Byte) (hD : ∀ i, (D i).length = len) {okS okM okB : List Byte → Prop}
    (hB : B.Sized len okM) (a : Attacker) (n q v : Nat) (ha : a.Within okS okM okB n q v) (ivs : List Block) (salts : List (List Byte))
    (seen : List (List Byte × Block × List Byte × List Byte)) : (a.focus B j D ivs salts seen).Within okM okB n q v := by
  induction a generalizing n q v ivs salts seen with
  | answer yes => trivial
  | send salt l r next ih =>
    obtain ⟨-, hl, hr, hlr, hb, hq, hn⟩ := ha
    by_cases hi : salts.idxOf salt = j
    · rw [focus_send_here _ hi]
      exact ⟨hl, hr, hlr, hb, hq, fun iv c tag hc ht => ih _ _ _ _ _ _ (hn iv c tag hc ht) _ _ _⟩
    · cases ivs with
      | nil =>
        rw [focus_send_nil hi]
        trivial
      | cons iv ivs =>
        have hc := hB.side (hD (salts.idxOf salt)) iv hl hr hlr (decide (salts.idxOf salt < j))
        simp only [decide_eq_true_eq] at hc
        rw [focus_send_there _ _ hi]
        exact within_mono _ (by omega) (by omega) le_rfl (ih _ _ _ _ _ _ (hn _ _ _ hc.1 hc.2) _ _ _)
  | submit salt iv c tag next ih =>
    obtain ⟨-, hb, hv, hn⟩ := ha
    by_cases hi : salts.idxOf salt = j
    · rw [focus_submit_here _ hi]
      exact ⟨hb, hv, fun r => ih _ _ _ _ (hn r) _ _ _⟩
    · rw [focus_submit_there _ hi]
      exact within_mono _ le_rfl le_rfl (by omega) (ih _ _ _ _ (hn _) _ _ _)

/-- The octets of the salt itself are not used. -/
theorem focus_congr (B : Boxes) (j : Nat) (D D' : Nat → List Byte) (hD : ∀ i, i ≠ j → D i = D' i) (a : Attacker) (ivs : List Block)
    (salts : List (List Byte)) (seen : List (List Byte × Block × List Byte × List Byte)) :
    a.focus B j D ivs salts seen = a.focus B j D' ivs salts seen := by
  induction a generalizing ivs salts seen with
  | answer yes => rfl
  | send salt l r next ih =>
    by_cases hi : salts.idxOf salt = j
    · rw [focus_send_here _ hi, focus_send_here _ hi]
      congr 1
      funext iv c tag
      exact ih _ _ _ _ _ _
    · cases ivs with
      | nil => rw [focus_send_nil hi, focus_send_nil hi]
      | cons iv ivs =>
        rw [focus_send_there _ _ hi, focus_send_there _ _ hi, hD _ hi]
        exact ih _ _ _ _ _ _
  | submit salt iv c tag next ih =>
    by_cases hi : salts.idxOf salt = j
    · rw [focus_submit_here _ hi, focus_submit_here _ hi]
      congr 1
      funext r
      exact ih _ _ _ _
    · rw [focus_submit_there _ hi, focus_submit_there _ hi, hD _ hi]
      exact ih _ _ _ _

/-- The boxes with salt number `j` among those seen are the boxes seen in the game with this salt only. -/
def Same (j : Nat) (salts : List (List Byte)) (seen : List (List Byte × Block × List Byte × List Byte))
    (boxes : List (Block × List Byte × List Byte)) : Prop :=
  (∀ b ∈ seen, b.1 ∈ salts) ∧ ∀ b, b ∈ boxes ↔ ∃ salt, salts.idxOf salt = j ∧ (salt, b) ∈ seen

theorem Same.note {j : Nat} {salts : List (List Byte)} {seen : List (List Byte × Block × List Byte × List Byte)}
    {boxes : List (Block × List Byte × List Byte)} (h : Same j salts seen boxes) (salt : List Byte) : Same j (note salts salt) seen boxes := by
  refine ⟨fun b hb => mem_note_of_mem _ (h.1 b hb), fun b => (h.2 b).trans ?_⟩
  constructor
  · rintro ⟨s, h1, h2⟩
    exact ⟨s, by rw [idxOf_note _ (h.1 _ h2), h1], h2⟩
  · rintro ⟨s, h1, h2⟩
    exact ⟨s, by rw [← h1, idxOf_note _ (h.1 _ h2)], h2⟩

theorem Same.here {j : Nat} {salts : List (List Byte)} {seen : List (List Byte × Block × List Byte × List Byte)}
    {boxes : List (Block × List Byte × List Byte)} (h : Same j salts seen boxes) (salt : List Byte) (hj : salts.idxOf salt = j)
    (b : Block × List Byte × List Byte) : Same j (SaltGames.note salts salt) ((salt, b) :: seen) (b :: boxes) := by
  have h' := h.note salt
  refine ⟨fun x hx => ?_, fun x => ?_⟩
  · rcases List.mem_cons.1 hx with rfl | hx
    · exact mem_note _ _
    · exact h'.1 x hx
  · rw [List.mem_cons, h'.2 x]
    constructor
    · rintro (rfl | ⟨s, h1, h2⟩)
      · exact ⟨salt, by rw [idxOf_note_self, hj], List.mem_cons_self⟩
      · exact ⟨s, h1, List.mem_cons_of_mem _ h2⟩
    · rintro ⟨s, h1, h2⟩
      rcases List.mem_cons.1 h2 with h2 | h2
      · exact .inl (Prod.ext_iff.1 h2).2
      · exact .inr ⟨s, h1, h2⟩

theorem Same.there {j : Nat} {salts : List (List Byte)} {seen : List (List Byte × Block × List Byte × List Byte)}
    {boxes : List (Block × List Byte × List Byte)} (h : Same j salts seen boxes) (salt : List Byte) (hj : salts.idxOf salt ≠ j)
    (b : Block × List Byte × List Byte) : Same j (SaltGames.note salts salt) ((salt, b) :: seen) boxes := by
  have h' := h.note salt
  refine ⟨fun x hx => ?_, fun x => ?_⟩
  · rcases List.mem_cons.1 hx with rfl | hx
    · exact mem_note _ _
    · exact h'.1 x hx
  · rw [h'.2 x]
    constructor
    · rintro ⟨s, h1, h2⟩
      exact ⟨s, h1, List.mem_cons_of_mem _ h2⟩
    · rintro ⟨s, h1, h2⟩
      rcases List.mem_cons.1 h2 with h2 | h2
      · rw [show s = salt from (Prod.ext_iff.1 h2).1, idxOf_note_self] at h1
        exact absurd h1 hj
      · exact ⟨s, h1, h2⟩

theorem Same.mem {j : Nat} {salts : List (List Byte)} {seen : List (List Byte × Block × List Byte × List Byte)}
    {boxes : List (Block × List Byte × List Byte)} (h : Same j salts seen boxes) (salt : List Byte) (hj : salts.idxOf salt = j)
    (b : Block × List Byte × List Byte) : b ∈ boxes ↔ (salt, b) ∈ seen := by
  rw [h.2 b]
  constructor
  · rintro ⟨s, h1, h2⟩
    have hs : s ∈ salts := h.1 _ h2
    rw [(List.idxOf_inj hs).1 (h1.trans hj.symm)] at h2
    exact h2
  · exact fun hm => ⟨salt, hj, hm⟩

/-- Right messages with the salts before number `j`, and also with that one if `right`. -/
def upTo (j : Nat) (right : Bool) (i : Nat) : Bool := decide (i < j) || (decide (i = j) && right)

/-- The attacker on the boxes with salt number `j` plays the game with the octets `D`. -/
theorem focus_real {B : Boxes} {len : Nat} (j : Nat) (D : Nat → List Byte) (hD : ∀ i, (D i).length = len) (right : Bool)
    {okS okM okB : List Byte → Prop} (hB : B.Sized len okM) (a : Attacker) (n q v q' : Nat) (hq' : q ≤ q') (ha : a.Within okS okM okB n q v)
    (salts : List (List Byte)) (seen : List (List Byte × Block × List Byte × List Byte)) (boxes : List (Block × List Byte × List Byte))
    (hsame : Same j salts seen boxes) :
    (avg fun ivs : List.Vector Block q' => SealGames.real (B.enc (D j)) (B.mac (D j)) (B.dec (D j)) right boxes
      (a.focus B j D ivs.toList salts seen)) = hybrid B D (upTo j right) salts seen a := by
  induction a generalizing n q v q' salts seen boxes with
  | answer yes =>
    simp only [Attacker.focus, SealGames.real, hybrid]
    exact avg_const _
  | send salt l r next ih =>
    obtain ⟨-, hl, hr, hlr, -, hq, hn⟩ := ha
    rw [hybrid]
    by_cases hi : salts.idxOf salt = j
    · have hu : upTo j right (salts.idxOf salt) = right := by simp [upTo, hi]
      simp only [focus_send_here _ hi, SealGames.real, hu]
      rw [avg_comm]
      refine congrArg avg (funext fun iv => ?_)
      have hc := hB.side (hD j) iv hl hr hlr right
      rw [hi]
      exact ih _ _ _ _ _ _ _ (by omega) (hn _ _ _ hc.1 hc.2) _ _ _ (hsame.here salt hi _)
    · have hu : upTo j right (salts.idxOf salt) = decide (salts.idxOf salt < j) := by simp [upTo, hi]
      obtain ⟨q', rfl⟩ := Nat.exists_eq_add_of_le' (hq.trans hq')
      rw [avg_cons q' fun ivs => SealGames.real (B.enc (D j)) (B.mac (D j)) (B.dec (D j)) right boxes
        ((Attacker.send salt l r next).focus B j D ivs salts seen)]
      simp only [focus_send_there _ _ hi, hu]
      refine congrArg avg (funext fun iv => ?_)
      have hc := hB.side (hD (salts.idxOf salt)) iv hl hr hlr (decide (salts.idxOf salt < j))
      have := ih iv _ _ _ _ _ q' (by omega) (hn iv _ _ hc.1 hc.2) (SaltGames.note salts salt) _ _ (hsame.there salt hi
        (iv, B.enc (D (salts.idxOf salt)) iv (if decide (salts.idxOf salt < j) then r else l),
          B.mac (D (salts.idxOf salt)) iv (B.enc (D (salts.idxOf salt)) iv (if decide (salts.idxOf salt < j) then r else l))))
      simp only [decide_eq_true_eq] at this ⊢
      exact this
  | submit salt iv c tag next ih =>
    obtain ⟨-, -, -, hn⟩ := ha
    rw [hybrid]
    by_cases hi : salts.idxOf salt = j
    · simp only [focus_submit_here _ hi, SealGames.real]
      rw [ih _ _ _ _ _ hq' (hn _) _ _ _ (hsame.note salt), hi]
      simp only [hsame.mem salt hi]
    · simp only [focus_submit_there _ hi]
      exact ih _ _ _ _ _ hq' (hn _) _ _ _ (hsame.note salt)

/-! ### From left to right, salt by salt -/

/-- A member of a random list may be drawn afterwards. -/
theorem avg_set {α : Type} [Fintype α] [Nonempty α] [Nonempty (List.Vector α s)] (j : Fin s) (F : List.Vector α s → ℚ) :
    avg F = avg fun v : List.Vector α s => avg fun x : α => F (v.set j x) := by
  let e : (α × List.Vector α s) ≃ (α × List.Vector α s) :=
    { toFun := fun p => (p.2.get j, p.2.set j p.1)
      invFun := fun p => (p.2.get j, p.2.set j p.1)
      left_inv := by
        rintro ⟨u, f⟩
        refine Prod.ext (List.Vector.get_set_same _ _ _) (List.Vector.ext fun i => ?_)
        by_cases h : j = i
        · subst h; simp
        · simp [List.Vector.get_set_of_ne h]
      right_inv := by
        rintro ⟨u, f⟩
        refine Prod.ext (List.Vector.get_set_same _ _ _) (List.Vector.ext fun i => ?_)
        by_cases h : j = i
        · subst h; simp
        · simp [List.Vector.get_set_of_ne h] }
  have h := avg_equiv e fun p => F p.2
  rw [avg_prod, avg_prod] at h
  rw [avg_comm]
  exact ((h.trans (avg_const (α := α) (avg F)))).symm

theorem nth_set {len s : Nat} (v : List.Vector (List.Vector Byte len) s) (j : Fin s) (x : List.Vector Byte len) :
    nth len (v.set j x).toList j = x.toList := by
  unfold nth
  rw [List.Vector.toList_set, List.getD_eq_getElem _ _ (by simp)]
  simp

theorem nth_set_ne {len s : Nat} (v : List.Vector (List.Vector Byte len) s) (j : Fin s) (x : List.Vector Byte len) (i : Nat) (h : i ≠ j) :
    nth len (v.set j x).toList i = nth len v.toList i := by
  unfold nth
  rw [List.Vector.toList_set, List.getD_eq_getElem?_getD, List.getD_eq_getElem?_getD, List.getElem?_set_ne (Ne.symm h)]

theorem same_nil (j : Nat) : Same j [] [] [] := ⟨fun _ h => absurd h List.not_mem_nil, fun b => by simp⟩

/-- What an attacker on the boxes with one salt gains. -/
def gain (B : Boxes) (len : Nat) (a : SealGames.Attacker) (right : Bool) : ℚ :=
  avg fun x : List.Vector Byte len => SealGames.real (B.enc x.toList) (B.mac x.toList) (B.dec x.toList) right [] a

theorem hybrid_focus {B : Boxes} {len : Nat} (right : Bool) {okS okM okB : List Byte → Prop} (hB : B.Sized len okM) (a : Attacker)
    (n q v : Nat) (ha : a.Within okS okM okB n q v) {s : Nat} (j : Fin s) :
    (avg fun dks : List.Vector (List.Vector Byte len) s => hybrid B (nth len dks.toList) (upTo j right) [] [] a) =
      avg fun dks : List.Vector (List.Vector Byte len) s => avg fun ivs : List.Vector Block q =>
        gain B len (a.focus B j (nth len dks.toList) ivs.toList [] []) right := by
  rw [avg_set j]
  refine congrArg avg (funext fun dks => ?_)
  simp only [gain]
  rw [avg_comm (α := List.Vector Block q)]
  refine congrArg avg (funext fun x => ?_)
  rw [← focus_real j _ (nth_length _) right hB a n q v q le_rfl ha [] [] [] (same_nil j), nth_set]
  refine congrArg avg (funext fun ivs => ?_)
  rw [focus_congr B j _ _ (fun i hi => nth_set_ne dks j x i hi)]

theorem upTo_true (j : Nat) : upTo j true = upTo (j + 1) false := by
  funext i
  simp only [upTo, Bool.and_true, Bool.and_false, Bool.or_false]
  rw [← Bool.decide_or]
  exact decide_eq_decide.2 (by omega)

theorem telescope (f : Nat → ℚ) (g : Nat → ℚ) (s : Nat) (h : ∀ j < s, |f j - f (j + 1)| ≤ g j) :
    |f 0 - f s| ≤ ∑ j ∈ Finset.range s, g j := by
  induction s with
  | zero => simp
  | succ s ih =>
    rw [Finset.sum_range_succ]
    have h1 := ih fun j hj => h j (by omega)
    have h2 := h s (by omega)
    exact (abs_sub_le _ (f s) _).trans (add_le_add h1 h2)

/-- Random octets for every salt: left and right messages differ by what the attackers on the boxes with one of the salts gain. -/
theorem sides_close {B : Boxes} {len : Nat} {okS okM okB : List Byte → Prop} (hB : B.Sized len okM) (a : Attacker) (n q v : Nat)
    (ha : a.Within okS okM okB n q v) :
    |(avg fun dks : List.Vector (List.Vector Byte len) (q + v) => hybrid B (nth len dks.toList) (fun _ => false) [] [] a) -
      avg fun dks : List.Vector (List.Vector Byte len) (q + v) => hybrid B (nth len dks.toList) (fun _ => true) [] [] a| ≤
      ∑ j ∈ Finset.range (q + v), avg fun dks : List.Vector (List.Vector Byte len) (q + v) => avg fun ivs : List.Vector Block q =>
        |gain B len (a.focus B j (nth len dks.toList) ivs.toList [] []) false -
          gain B len (a.focus B j (nth len dks.toList) ivs.toList [] []) true| := by
  have h0 : (fun _ => false) = upTo 0 false := by funext i; simp [upTo]
  have hs (dks : List.Vector (List.Vector Byte len) (q + v)) : hybrid B (nth len dks.toList) (fun _ => true) [] [] a =
      hybrid B (nth len dks.toList) (upTo (q + v) false) [] [] a :=
    hybrid_side hB _ (nth_length _) _ _ (q + v) (fun i hi => by simp [upTo, hi]) a n q v ha [] (by simp) []
  simp only [hs, h0]
  refine telescope (fun j => avg fun dks : List.Vector (List.Vector Byte len) (q + v) => hybrid B (nth len dks.toList) (upTo j false) [] [] a) _
    (q + v) fun j hj => ?_
  rw [← upTo_true, hybrid_focus false hB a n q v ha ⟨j, hj⟩, hybrid_focus true hB a n q v ha ⟨j, hj⟩]
  exact avg_close _ fun dks => avg_close _ fun ivs => le_rfl

end Spec.SaltGames
