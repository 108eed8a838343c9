import Verif.Spec.SealGames
import Verif.Proof.Games

/-!
A recipient who checks tags first is of no use to an attacker who cannot find tags.
-/

namespace Spec.SealGames
open Spec Spec.Games

theorem avg_cons {α : Type} [Fintype α] (n : Nat) (k : List α → ℚ) :
    (avg fun c : List.Vector α (n + 1) => k c.toList) = avg fun a : α => avg fun c : List.Vector α n => k (a :: c.toList) := by
  let e : α × List.Vector α n ≃ List.Vector α (n + 1) :=
    { toFun := fun p => p.1 ::ᵥ p.2
      invFun := fun c => (c.head, c.tail)
      left_inv := fun p => by simp
      right_inv := fun c => by simp }
  rw [← avg_equiv e, avg_prod]
  refine congrArg avg (funext fun a => congrArg avg (funext fun c => ?_))
  show k (a ::ᵥ c).toList = _
  rw [List.Vector.toList_cons]

attribute [local irreducible] avg

instance {n : Nat} : Nonempty (List.Vector Block n) := ⟨List.Vector.replicate n (List.Vector.replicate 16 0)⟩

theorem wins_nonneg (M : List Byte → List Byte) (p : KeyGames.Prober) (asked : List (List Byte)) : 0 ≤ p.wins M asked := by
  induction p generalizing asked with
  | stop => exact le_rfl
  | ask m next ih => exact ih _ _
  | attempt m tag next ih =>
    rw [KeyGames.Prober.wins]
    split
    · exact zero_le_one
    · exact ih _ _

section
variable (enc mac : Block → List Byte → List Byte) (dec : Block → List Byte → Option (List Byte)) (right : Bool)

theorem real_mem (a : Attacker) (seen : List (Block × List Byte × List Byte)) :
    0 ≤ real enc mac dec right seen a ∧ real enc mac dec right seen a ≤ 1 := by
  induction a generalizing seen with
  | answer yes => rw [real]; split <;> constructor <;> norm_num
  | send l r next ih => exact ⟨avg_nonneg fun iv => (ih _ _ _ _).1, avg_le_one fun iv => (ih _ _ _ _).2⟩
  | submit iv c tag next ih => exact ih _ _

theorem games_real_mem (e : Block → List Op → List Byte) (a : Games.Attacker) : 0 ≤ Games.real e a ∧ Games.real e a ≤ 1 := by
  induction a with
  | answer yes => rw [Games.real]; split <;> constructor <;> norm_num
  | ask ops next ih => exact ⟨avg_nonneg fun iv => (ih _ _).1, avg_le_one fun iv => (ih _ _).2⟩
end

/-- The attacker notices that its boxes are never opened only if it finds a tag. -/
theorem deaf_close (e : Block → List Op → List Byte) (M : List Byte → List Byte) (dec : Block → List Byte → Option (List Byte)) (right : Bool)
    {okM okB : List Byte → Prop} (a : Attacker) (n q v : Nat) (ha : a.Within okM okB n q v) (seen : List (Block × List Byte × List Byte))
    (hs : ∀ x ∈ seen, x.2.2 = M (x.1.toList ++ x.2.1))
    (he : ∀ iv m, okM m → (e iv [.write m, .flush]).length = ciphertextSize m ∧ (M (iv.toList ++ e iv [.write m, .flush])).length = 32) :
    |real (fun iv m => e iv [.write m, .flush]) (fun iv c => M (iv.toList ++ c)) dec right seen a -
        Games.real e ((a.deaf fun iv c => M (iv.toList ++ c)).side right)| ≤
      avg fun ivs : List.Vector Block q =>
        (a.prober (fun iv m => e iv [.write m, .flush]) right ivs.toList).wins M (seen.map fun x => x.1.toList ++ x.2.1) := by
  induction a generalizing n q v seen with
  | answer yes =>
    simp only [real, Attacker.deaf, Chooser.side, Games.real, sub_self, abs_zero]
    exact avg_nonneg fun _ => wins_nonneg _ _ _
  | send l r next ih =>
    obtain ⟨hl, hr, hlr, -, hq, hn⟩ := ha
    obtain ⟨q, rfl⟩ := Nat.exists_eq_add_of_le' hq
    rw [avg_cons q fun ivs => ((Attacker.send l r next).prober (fun iv m => e iv [.write m, .flush]) right ivs).wins M
      (seen.map fun x => x.1.toList ++ x.2.1)]
    simp only [real, Attacker.deaf, Chooser.side, Games.real]
    refine avg_close _ fun iv => ?_
    have hc : (e iv [.write (if right then r else l), .flush]).length = ciphertextSize l ∧
        (M (iv.toList ++ e iv [.write (if right then r else l), .flush])).length = 32 := by
      cases right with
      | false => exact he iv l hl
      | true => exact ⟨(he iv r hr).1.trans (by rw [ciphertextSize, ciphertextSize, hlr]), (he iv r hr).2⟩
    have := ih iv (e iv [.write (if right then r else l), .flush]) (M (iv.toList ++ e iv [.write (if right then r else l), .flush]))
      _ _ _ (hn _ _ _ hc.1 hc.2) ((iv, e iv [.write (if right then r else l), .flush], M (iv.toList ++ e iv [.write (if right then r else l), .flush])) :: seen)
      (by
        intro x hx
        rcases List.mem_cons.mp hx with rfl | hx
        · rfl
        · exact hs x hx)
    simp only [Attacker.prober, KeyGames.Prober.wins]
    cases right with
    | false =>
      rw [if_neg (by decide : ¬ false = true)] at hc this
      rw [if_neg (by decide : ¬ false = true), if_neg (by decide : ¬ false = true), if_pos hc]
      simp only [if_pos hc]
      exact this
    | true =>
      rw [if_pos rfl] at hc this
      rw [if_pos rfl, if_pos rfl, if_pos hc]
      simp only [if_pos hc]
      exact this
  | submit iv c tag next ih =>
    obtain ⟨-, -, hn⟩ := ha
    by_cases hw : iv.toList ++ c ∉ (seen.map fun x => x.1.toList ++ x.2.1) ∧ M (iv.toList ++ c) = tag
    · have : (avg fun ivs : List.Vector Block q => ((Attacker.submit iv c tag next).prober (fun iv m => e iv [.write m, .flush]) right ivs.toList).wins M
          (seen.map fun x => x.1.toList ++ x.2.1)) = 1 := by
        rw [← avg_const (α := List.Vector Block q) 1]
        refine congrArg avg (funext fun ivs => ?_)
        cases ivs.toList <;> simp only [Attacker.prober, KeyGames.Prober.wins] <;> rw [if_pos hw]
      rw [this]
      have h1 := real_mem (fun iv m => e iv [.write m, .flush]) (fun iv c => M (iv.toList ++ c)) dec right (.submit iv c tag next) seen
      have h2 := games_real_mem e (((Attacker.submit iv c tag next).deaf fun iv c => M (iv.toList ++ c)).side right)
      rw [abs_le]
      constructor <;> linarith [h1.1, h1.2, h2.1, h2.2]
    · have hr : (if (iv, c, tag) ∈ seen then Reply.refused else reply (fun iv c => M (iv.toList ++ c)) dec iv c tag) = .refused := by
        split
        · rfl
        · rename_i hseen
          rw [reply, if_neg]
          intro hM
          refine hw ⟨fun hmem => ?_, hM⟩
          obtain ⟨⟨iv', c', t'⟩, h1, h2⟩ := List.mem_map.mp hmem
          have h3 := hs _ h1
          dsimp only at h2 h3
          obtain ⟨h4, h5⟩ := List.append_inj h2 (by simp)
          have h6 : iv' = iv := List.Vector.eq _ _ h4
          rw [h2, hM] at h3
          rw [h6, h5, h3] at h1
          exact hseen h1
      have := ih .refused _ _ _ (hn _) seen hs
      rw [real, hr]
      refine this.trans (le_of_eq (congrArg avg (funext fun ivs => ?_)))
      cases ivs.toList <;> simp only [Attacker.prober, KeyGames.Prober.wins] <;> rw [if_neg hw]

/-- Drawing all initialization vectors beforehand makes no difference. -/
theorem real_eq_says (enc mac : Block → List Byte → List Byte) (dec : Block → List Byte → Option (List Byte)) (right : Bool)
    {okM okB : List Byte → Prop} (a : Attacker) (n q v : Nat) (ha : a.Within okM okB n q v) (seen : List (Block × List Byte × List Byte))
    (he : ∀ iv m, okM m → (enc iv m).length = ciphertextSize m ∧ (mac iv (enc iv m)).length = 32) :
    real enc mac dec right seen a = avg fun ivs : List.Vector Block q => if a.says enc mac dec right ivs.toList seen then 1 else 0 := by
  induction a generalizing n q v seen with
  | answer yes =>
    rw [real, ← avg_const (α := List.Vector Block q) (if yes then 1 else 0)]
    refine congrArg avg (funext fun ivs => ?_)
    cases ivs.toList <;> rfl
  | send l r next ih =>
    obtain ⟨hl, hr, hlr, -, hq, hn⟩ := ha
    obtain ⟨q, rfl⟩ := Nat.exists_eq_add_of_le' hq
    rw [avg_cons q fun ivs => if (Attacker.send l r next).says enc mac dec right ivs seen then 1 else 0, real]
    refine congrArg avg (funext fun iv => ?_)
    have hc : (enc iv (if right then r else l)).length = ciphertextSize l ∧ (mac iv (enc iv (if right then r else l))).length = 32 := by
      cases right with
      | false => exact he iv l hl
      | true => exact ⟨(he iv r hr).1.trans (by rw [ciphertextSize, ciphertextSize, hlr]), (he iv r hr).2⟩
    exact ih _ _ _ _ _ _ (hn _ _ _ hc.1 hc.2) _
  | submit iv c tag next ih =>
    rw [real, ih _ _ _ _ (ha.2.2 _)]
    refine congrArg avg (funext fun ivs => ?_)
    cases ivs.toList <;> rfl

end Spec.SealGames
