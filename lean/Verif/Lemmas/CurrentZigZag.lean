import Verif.Model.CurrentZigZag
import Verif.Lemmas.CurrentSum

set_option linter.unusedSectionVars false
set_option linter.unusedSimpArgs false

namespace Pico
namespace ZigZag

open Yee VB

variable {K : Type _} [Field K] [LinearOrder K] [IsStrictOrderedRing K] [FloorRing K]

/-- Value an increment adds to a component. -/
def part (c : Comp) : Op K → K
  | .inc c' _ _ v => if c' = c then v else 0
  | .set _ _ _ _ => 0

theorem gridTotal_val (g : Geom K) (c : Comp) (o : Op K) (h : o.Inc g) :
    gridTotal g o.val c = part c o := by
  cases o with
  | set => exact h.elim
  | inc c' i k v =>
    obtain ⟨⟨h1, h2⟩, h3, h4⟩ := h
    unfold gridTotal part Op.val
    dsimp only
    by_cases hc : c' = c
    · subst hc
      rw [if_pos rfl, Finset.sum_eq_single i, Finset.sum_eq_single k]
      · rw [if_pos ⟨rfl, rfl, rfl⟩]
      · intro b _ hb; rw [if_neg]; rintro ⟨_, _, e⟩; exact hb e
      · intro hk; exact absurd (Finset.mem_Icc.mpr ⟨h3, by omega⟩) hk
      · intro a _ ha
        refine Finset.sum_eq_zero fun b _ => ?_
        rw [if_neg]; rintro ⟨_, e, _⟩; exact ha e
      · intro hk; exact absurd (Finset.mem_Icc.mpr ⟨h1, by omega⟩) hk
    · rw [if_neg hc]
      refine Finset.sum_eq_zero fun a _ => Finset.sum_eq_zero fun b _ => ?_
      rw [if_neg]; rintro ⟨e, _⟩; exact hc e.symm

theorem gridTotal_add (g : Geom K) (J J' : Comp → Int → Int → K) (c : Comp) :
    gridTotal g (fun c i k => J c i k + J' c i k) c = gridTotal g J c + gridTotal g J' c := by
  unfold gridTotal
  simp only [Finset.sum_add_distrib]

theorem gridTotal_tot (g : Geom K) (ops : List (Op K)) (h : ∀ o ∈ ops, o.Inc g) (c : Comp) :
    gridTotal g (tot ops) c = (ops.map (part c)).sum := by
  induction ops with
  | nil => unfold gridTotal; simp [tot_nil]
  | cons o l ih =>
    have e : tot (o :: l) = fun c i k => o.val c i k + tot l c i k := by
      funext c i k; exact tot_cons o l c i k
    rw [e, gridTotal_add, gridTotal_val g c o (h o (by simp)), ih (fun o ho => h o (by simp [ho]))]
    simp

/-- Running increments adds their sum to the total. -/
theorem gridTotal_run (g : Geom K) (ops : List (Op K)) (h : ∀ o ∈ ops, o.Inc g) {m m' : Mem K}
    (hm : ∀ c i k, m' c i k = m c i k + tot ops c i k) (c : Comp) :
    gridTotal g m' c = gridTotal g m c + (ops.map (part c)).sum := by
  have e : m' = fun c i k => m c i k + tot ops c i k := by funext c i k; exact hm c i k
  rw [e, gridTotal_add, gridTotal_tot g ops h]

/-- Relay point within one cell. -/
theorem relay_same {i : Int} {x1 x2 dx : K} (h1 : (i : K) * dx ≤ x1 ∧ x1 < ((i : K) + 1) * dx)
    (h2 : (i : K) * dx ≤ x2 ∧ x2 < ((i : K) + 1) * dx) : relayPoint i i x1 x2 dx = (x1 + x2) / 2 := by
  unfold relayPoint
  rw [min_self, max_self, max_eq_right (by linarith [h1.1, h2.1]), min_eq_right]
  linarith [h1.2, h2.2]

/-- Relay point of a move to a cell further out. -/
theorem relay_up {i j : Int} {x1 x2 dx : K} (hd : 0 < dx) (hij : i < j) :
    relayPoint i j x1 x2 dx = ((i : K) + 1) * dx := by
  have c : (i : K) + 1 ≤ j := by exact_mod_cast hij
  have c' : ((i : K) + 1) * dx ≤ (j : K) * dx := mul_le_mul_of_nonneg_right c hd.le
  unfold relayPoint
  rw [min_eq_left (a := (i : K) * dx) (by linarith), max_eq_right (a := (i : K) * dx) (by linarith), min_eq_left]
  · ring
  · exact le_trans (by linarith) (le_max_left _ _)

theorem relay_comm (i j : Int) (x1 x2 dx : K) : relayPoint i j x1 x2 dx = relayPoint j i x2 x1 dx := by
  unfold relayPoint
  rw [min_comm ((i : K) * dx), max_comm ((i : K) * dx), add_comm x1]

end ZigZag
end Pico
