import Verif.Model.CurrentStep
import Verif.Lemmas.FieldStep
import Verif.Lemmas.Gather
import Verif.Props.Gather
import Verif.Props.ZigZag
import Verif.Props.ZigZagCont
import Verif.Lemmas.Shift
import Verif.Spec.CurrentStep

/-! The exchange of currents in terms of the deposits of all domains. -/

set_option linter.unusedSimpArgs false
set_option linter.unusedVariables false
set_option linter.unusedSectionVars false

namespace Pico
namespace Yee

open SMB

variable {K : Type _}

theorem low_mul {n d : Nat} (hd : 1 ≤ d) (h : d ∣ n) (i : Nat) : low n d i = i * (n / d) := by
  obtain ⟨q, rfl⟩ := h
  unfold low
  rw [Nat.mul_assoc, Nat.mul_div_cancel_left _ hd, Nat.mul_div_cancel_left _ hd, Nat.mul_comm]

section
variable [AddCommMonoid K]

/-- What the two domains at the lower right and at the upper left corner of domain `(i, j)` have of `f`. -/
def anti (domR domZ i j : Nat) (f : Nat → Nat → K) : K :=
  (if i + 1 < domR ∧ 0 < j then f (i+1) (j-1) else 0) + (if 0 < i ∧ j + 1 < domZ then f (i-1) (j+1) else 0)

/-- One component after the exchange, if every domain holds its part of a function `f i j` of the area that vanishes outside
the domain and its overlay. -/
theorem overlay_gather (p : Par K) {domR domZ : Nat} (hd : Divided p domR domZ) (c : Comp) (M : Solvers K)
    (f : Nat → Nat → Int → Int → K)
    (hin : ∀ i j x y, i < domR → j < domZ → (winPar p domR domZ i j).inside x y →
      M i j c x y = f i j (low p.nr domR i + x) (low p.nz domZ j + y))
    (hout : ∀ i j x y, i < domR → j < domZ → ¬ (winPar p domR domZ i j).inside x y →
      f i j (low p.nr domR i + x) (low p.nz domZ j + y) = 0) :
    ∃ M', overlayComp (winPar p domR domZ) domR domZ c M = .ok M' ∧ (∀ i j c' x y, c' ≠ c → M' i j c' x y = M i j c' x y) ∧
      ∀ i j x y, CellOf p domR domZ i j x y →
        M' i j c x y + anti domR domZ i j (fun a b => f a b (low p.nr domR i + x) (low p.nz domZ j + y)) =
          ∑ a ∈ Finset.range domR, ∑ b ∈ Finset.range domZ, f a b (low p.nr domR i + x) (low p.nz domZ j + y) := by
  have hx : ∀ i, hgt p.nr domR i = p.nr / domR := hgt_const hd.r1 hd.r4
  have hy : ∀ i, hgt p.nz domZ i = p.nz / domZ := hgt_const hd.z1 hd.z4
  have lx : ∀ i, low p.nr domR i = i * (p.nr / domR) := low_mul hd.r1 hd.r4
  have ly : ∀ i, low p.nz domZ i = i * (p.nz / domZ) := low_mul hd.z1 hd.z4
  have h2 : 2 ≤ p.nr / domR := (Nat.le_div_iff_mul_le hd.r1).mpr hd.r2
  have w2 : 2 ≤ p.nz / domZ := (Nat.le_div_iff_mul_le hd.z1).mpr hd.z2
  generalize hD : (fun i j => toGrid (winPar p domR domZ i j) (M i j) c) = D
  have eD : ∀ i j, D i j = toGrid (winPar p domR domZ i j) (M i j) c := fun i j => by rw [← hD]
  have L : Layout D domR domZ 2 (fun _ => p.nr / domR) (fun _ => p.nz / domZ) :=
    ⟨fun _ _ _ _ => by rw [eD]; rfl, fun i j _ _ => by rw [eD, ← hx i]; exact winPar_nr p domR domZ i j,
      fun i j _ _ => by rw [eD, ← hy j]; exact winPar_nz p domR domZ i j⟩
  have G : Good domR domZ (fun _ => p.nr / domR) (fun _ => p.nz / domZ) := by
    have := hd.good
    have e1 : hgt p.nr domR = fun _ => p.nr / domR := funext hx
    have e2 : hgt p.nz domZ = fun _ => p.nz / domZ := funext hy
    rwa [e1, e2] at this
  have G' : domR ≤ 1 ∨ domZ ≤ 1 ∨ p.nr / domR = p.nz / domZ := by
    rcases hd.shape with h | h | h
    · left; omega
    · right; left; omega
    · right; right; exact h
  have hh : ∀ a b, a < domR → b < domZ → ∀ X Y, held D (p.nr / domR) (p.nz / domZ) a b X Y = f a b X Y := by
    intro a b ha hb X Y
    unfold held
    have key : (D a b).Inside (X - a * ((p.nr / domR : Nat) : Int)) (Y - b * ((p.nz / domZ : Nat) : Int)) ↔
        (winPar p domR domZ a b).inside (X - a * ((p.nr / domR : Nat) : Int)) (Y - b * ((p.nz / domZ : Nat) : Int)) := by
      rw [eD]
      unfold Grid.Inside toGrid Par.inside
      dsimp only
      constructor <;> intro h <;> omega
    have eX : (low p.nr domR a : Int) + (X - a * ((p.nr / domR : Nat) : Int)) = X := by rw [lx a]; push_cast; omega
    have eY : (low p.nz domZ b : Int) + (Y - b * ((p.nz / domZ : Nat) : Int)) = Y := by rw [ly b]; push_cast; omega
    split
    · rename_i h
      have h := key.mp h
      have e := hin a b _ _ ha hb h
      rw [eX, eY] at e
      rw [← e, eD]
      show M a b c _ _ = _
      unfold Par.inside at h
      unfold toGrid
      dsimp only
      congr 1 <;> omega
    · rename_i h
      have e := hout a b _ _ ha hb (fun k => h (key.mpr k))
      rw [eX, eY] at e
      exact e.symm
  have E := pass_exists D 2 _ _ domR domZ L G
  refine ⟨_, by unfold overlayComp; rw [hD, E, Res.ok_bind], ?_, ?_⟩
  · intro i j c' x y h
    exact if_neg (fun k => h k.1)
  · rintro i j x y ⟨hi, hj, h3, h4⟩
    rw [hx] at h3
    rw [hy] at h4
    have ins : (winPar p domR domZ i j).inside x y := by
      unfold Par.inside
      rw [winPar_nr, winPar_nz, hx, hy]
      omega
    have eq : ∀ m', ofGrid (winPar p domR domZ i j) (M i j) c (ofMemD D m' i j) c x y = m' (i, j, (x + 2).toNat, (y + 2).toNat) :=
      fun m' => if_pos ⟨rfl, ins⟩
    rw [eq, pass_cells 2 _ _ domR domZ G (fun _ _ => h2) (fun _ _ => w2) _ (nodup_sweep domR domZ) (fun p => mem_sweep) _ i j _ _
      hi hj (by omega) (by omega)]
    have A := allHeld_eq D domR domZ (p.nr / domR) (p.nz / domZ) 2 L G' h2 w2 i j hi hj x y h3 h4
    have e1 : ((i : Int) * ((p.nr / domR : Nat) : Int) + x) = low p.nr domR i + x := by rw [lx]; push_cast; rfl
    have e2 : ((j : Int) * ((p.nz / domZ : Nat) : Int) + y) = low p.nz domZ j + y := by rw [ly]; push_cast; rfl
    rw [e1, e2] at A
    have B : antidiagonal D domR domZ (p.nr / domR) (p.nz / domZ) i j (low p.nr domR i + x) (low p.nz domZ j + y) =
        anti domR domZ i j (fun a b => f a b (low p.nr domR i + x) (low p.nz domZ j + y)) := by
      unfold antidiagonal anti
      congr 1
      · split
        · rename_i h
          exact hh _ _ (by omega) (by omega) _ _
        · rfl
      · split
        · rename_i h
          exact hh _ _ (by omega) (by omega) _ _
        · rfl
    rw [B] at A
    refine Eq.trans A.symm ?_
    unfold allHeld
    refine Finset.sum_congr rfl fun a ha => Finset.sum_congr rfl fun b hb => ?_
    exact hh a b (Finset.mem_range.mp ha) (Finset.mem_range.mp hb) _ _

/-- The exchange of several components. -/
theorem overlays_gather (p : Par K) {domR domZ : Nat} (hd : Divided p domR domZ) (f : Comp → Nat → Nat → Int → Int → K) :
    ∀ (cs : List Comp) (M : Solvers K), cs.Nodup →
    (∀ c ∈ cs, ∀ i j x y, i < domR → j < domZ → (winPar p domR domZ i j).inside x y →
      M i j c x y = f c i j (low p.nr domR i + x) (low p.nz domZ j + y)) →
    (∀ c ∈ cs, ∀ i j x y, i < domR → j < domZ → ¬ (winPar p domR domZ i j).inside x y →
      f c i j (low p.nr domR i + x) (low p.nz domZ j + y) = 0) →
    ∃ M', loop (overlayComp (winPar p domR domZ) domR domZ) cs M = .ok M' ∧
      (∀ i j c' x y, c' ∉ cs → M' i j c' x y = M i j c' x y) ∧
      ∀ c ∈ cs, ∀ i j x y, CellOf p domR domZ i j x y →
        M' i j c x y + anti domR domZ i j (fun a b => f c a b (low p.nr domR i + x) (low p.nz domZ j + y)) =
          ∑ a ∈ Finset.range domR, ∑ b ∈ Finset.range domZ, f c a b (low p.nr domR i + x) (low p.nz domZ j + y) := by
  intro cs
  induction cs with
  | nil =>
    intro M _ _ _
    exact ⟨M, rfl, fun _ _ _ _ _ _ => rfl, fun c h => absurd h List.not_mem_nil⟩
  | cons c cs ih =>
    intro M nd hin hout
    obtain ⟨n1, n2⟩ := List.nodup_cons.mp nd
    obtain ⟨M1, e1, f1, w1⟩ := overlay_gather p hd c M (f c) (hin c List.mem_cons_self) (hout c List.mem_cons_self)
    have ne : ∀ c' ∈ cs, c' ≠ c := fun c' h e => n1 (e ▸ h)
    obtain ⟨M2, e2, f2, w2⟩ := ih M1 n2
      (fun c' h i j x y a b h1 => by
        rw [f1 _ _ _ _ _ (ne c' h)]; exact hin c' (List.mem_cons_of_mem _ h) i j x y a b h1)
      (fun c' h => hout c' (List.mem_cons_of_mem _ h))
    refine ⟨M2, by rw [loop_cons, e1, Res.ok_bind, e2], ?_, ?_⟩
    · intro i j c' x y h
      rw [f2 _ _ _ _ _ (fun k => h (List.mem_cons_of_mem _ k)), f1 _ _ _ _ _ (fun k => h (k ▸ List.mem_cons_self))]
    · intro c' h i j x y hc
      rcases List.mem_cons.mp h with rfl | h
      · rw [f2 _ _ _ _ _ n1]
        exact w1 i j x y hc
      · exact w2 c' h i j x y hc

/-- A double sum with one term. -/
theorem sum_pick (n k : Nat) (f : Nat → Nat → K) (s t : Nat) :
    ∑ a ∈ Finset.range n, ∑ b ∈ Finset.range k, (if a = s ∧ b = t then f a b else 0) = if s < n ∧ t < k then f s t else 0 := by
  have inner : ∀ a, ∑ b ∈ Finset.range k, (if a = s ∧ b = t then f a b else 0) = if a = s then (if t < k then f s t else 0) else 0 := by
    intro a
    by_cases ha : a = s
    · subst ha
      rw [if_pos rfl]
      by_cases ht : t < k
      · rw [if_pos ht, Finset.sum_eq_single t]
        · rw [if_pos ⟨rfl, rfl⟩]
        · intro b _ hb; exact if_neg (fun h => hb h.2)
        · intro h; exact absurd (Finset.mem_range.mpr ht) h
      · rw [if_neg ht]
        refine Finset.sum_eq_zero fun b hb => if_neg (fun h => ?_)
        have := Finset.mem_range.mp hb
        omega
    · rw [if_neg ha]
      exact Finset.sum_eq_zero fun b _ => if_neg (fun h => ha h.1)
  rw [Finset.sum_congr rfl fun a _ => inner a]
  by_cases hs : s < n
  · rw [Finset.sum_eq_single s]
    · rw [if_pos rfl]
      by_cases ht : t < k
      · rw [if_pos ht, if_pos ⟨hs, ht⟩]
      · rw [if_neg ht, if_neg (fun h => ht h.2)]
    · intro a _ ha; exact if_neg ha
    · intro h; exact absurd (Finset.mem_range.mpr hs) h
  · rw [if_neg (show ¬ (s < n ∧ t < k) from fun h => hs h.1)]
    refine Finset.sum_eq_zero fun a ha => if_neg (fun h => ?_)
    have := Finset.mem_range.mp ha
    omega

/-- The sum over all domains without and with the two at the corners. -/
theorem sum_anti (domR domZ i j : Nat) (hi : i < domR) (hj : j < domZ) (f : Nat → Nat → K) :
    ∑ a ∈ Finset.range domR, ∑ b ∈ Finset.range domZ, f a b =
      ∑ a ∈ Finset.range domR, ∑ b ∈ Finset.range domZ, (if !Antidiagonal i j a b then f a b else 0) + anti domR domZ i j f := by
  have e : ∀ a b, f a b = (if !Antidiagonal i j a b then f a b else 0) +
      ((if a = i + 1 ∧ b = j - 1 then (if 0 < j then f a b else 0) else 0) + if a = i - 1 ∧ b = j + 1 then (if 0 < i then f a b else 0) else 0) := by
    intro a b
    unfold Antidiagonal
    by_cases h1 : a = i + 1 ∧ b + 1 = j
    · have h2 : ¬ (a = i - 1 ∧ b = j + 1) := by omega
      have h3 : a = i + 1 ∧ b = j - 1 := by omega
      have h4 : 0 < j := by omega
      rw [if_pos h3, if_pos h4, if_neg h2]
      simp [h1]
    · by_cases h2 : a + 1 = i ∧ b = j + 1
      · have h3 : a = i - 1 ∧ b = j + 1 := by omega
        have h4 : 0 < i := by omega
        have h5 : ¬ (a = i + 1 ∧ b = j - 1) := by omega
        rw [if_neg h5, if_pos h3, if_pos h4]
        simp [h2]
      · have h3 : (if a = i + 1 ∧ b = j - 1 then (if 0 < j then f a b else 0) else 0) = 0 := by
          split
          · exact if_neg (by omega)
          · rfl
        have h4 : (if a = i - 1 ∧ b = j + 1 then (if 0 < i then f a b else 0) else 0) = 0 := by
          split
          · exact if_neg (by omega)
          · rfl
        rw [h3, h4]
        simp [h1, h2]
  rw [Finset.sum_congr rfl fun a _ => Finset.sum_congr rfl fun b _ => e a b]
  simp only [Finset.sum_add_distrib]
  congr 1
  rw [sum_pick domR domZ (fun a b => if 0 < j then f a b else 0), sum_pick domR domZ (fun a b => if 0 < i then f a b else 0)]
  unfold anti
  congr 1
  · by_cases h : i + 1 < domR ∧ 0 < j
    · rw [if_pos h, if_pos ⟨h.1, by omega⟩, if_pos h.2]
    · rw [if_neg h]
      split
      · exact if_neg (by omega)
      · rfl
  · by_cases h : 0 < i ∧ j + 1 < domZ
    · rw [if_pos h, if_pos ⟨by omega, h.2⟩, if_pos h.1]
    · rw [if_neg h]
      split
      · exact if_neg (by omega)
      · rfl

theorem sum_flat {α : Type _} (n : Nat) (l : Nat → List α) (d : α → K) :
    (((List.range n).flatMap l).map d).sum = ∑ a ∈ Finset.range n, ((l a).map d).sum := by
  induction n with
  | zero => simp
  | succ n ih =>
    rw [List.range_succ, List.flatMap_append, List.map_append, List.sum_append, ih, Finset.sum_range_succ]
    simp

theorem sum_partsOf (domR domZ : Nat) (keep : Nat → Nat → Bool) (ps : Nat → Nat → List (VB.Part K)) (d : VB.Part K → K) :
    ((partsOf domR domZ keep ps).map d).sum =
      ∑ a ∈ Finset.range domR, ∑ b ∈ Finset.range domZ, if keep a b then ((ps a b).map d).sum else 0 := by
  unfold partsOf
  rw [sum_flat]
  refine Finset.sum_congr rfl fun a _ => ?_
  rw [sum_flat]
  refine Finset.sum_congr rfl fun b _ => ?_
  split <;> simp

end

theorem mem_partsOf {domR domZ : Nat} {keep : Nat → Nat → Bool} {ps : Nat → Nat → List (VB.Part K)} {q : VB.Part K} :
    q ∈ partsOf domR domZ keep ps ↔ ∃ a b, a < domR ∧ b < domZ ∧ keep a b = true ∧ q ∈ ps a b := by
  unfold partsOf
  simp only [List.mem_flatMap, List.mem_range]
  constructor
  · rintro ⟨a, ha, b, hb, h⟩
    cases hk : keep a b with
    | false => rw [hk] at h; simp at h
    | true => rw [hk] at h; exact ⟨a, b, ha, hb, hk, by simpa using h⟩
  · rintro ⟨a, b, ha, hb, hk, h⟩
    exact ⟨a, ha, b, hb, by rw [hk]; simpa using h⟩

section
open VB
variable [Field K] [LinearOrder K] [IsStrictOrderedRing K] [FloorRing K]

/-- The current components. -/
def isJ (c : Comp) : Prop := c = .jr ∨ c = .jp ∨ c = .jz

/-- The current step of all domains if the deposition of every domain is known. -/
theorem solve_gather (dist : Ctx K → List (Part K) → Mem K → Res (Mem K)) (p : Par K) {domR domZ : Nat} (hd : Divided p domR domZ)
    (e : Consts K) (ps : Nat → Nat → List (Part K)) (M : Solvers K) (f : Comp → Nat → Nat → Int → Int → K)
    (hr : ∀ i j m, i < domR → j < domZ → ∃ r, dist (domCtx p domR domZ e i j) (ps i j) (resetCurrent (domCtx p domR domZ e i j).g m) = .ok r ∧
      (∀ c, isJ c → ∀ x y, (winPar p domR domZ i j).inside x y → r c x y = f c i j (low p.nr domR i + x) (low p.nz domZ j + y)) ∧
      ∀ c, ¬ isJ c → ∀ x y, r c x y = m c x y)
    (hout : ∀ c, isJ c → ∀ i j x y, i < domR → j < domZ → ¬ (winPar p domR domZ i j).inside x y →
      f c i j (low p.nr domR i + x) (low p.nz domZ j + y) = 0) :
    ∃ M', solveCurrent dist p domR domZ e ps M = .ok M' ∧
      (∀ i j c x y, i < domR → j < domZ → ¬ isJ c → M' i j c x y = M i j c x y) ∧
      ∀ c, isJ c → ∀ i j x y, CellOf p domR domZ i j x y →
        M' i j c x y = ∑ a ∈ Finset.range domR, ∑ b ∈ Finset.range domZ,
          if !Antidiagonal i j a b then f c a b (low p.nr domR i + x) (low p.nz domZ j + y) else 0 := by
  choose! r h1 h2 h3 using hr
  obtain ⟨M1, e1, v1⟩ := each_ok domR domZ
    (fun i j m => dist (domCtx p domR domZ e i j) (ps i j) (resetCurrent (domCtx p domR domZ e i j).g m)) (fun i j => r i j (M i j)) M
    (fun i j hi hj => h1 i j (M i j) hi hj)
  obtain ⟨M2, e2, f2, w2⟩ := overlays_gather p hd f [.jr, .jp, .jz] M1 (by decide)
    (fun c hc i j x y hi hj hin => by
      rw [v1 i j hi hj]
      exact h2 i j (M i j) hi hj c (by simpa [isJ] using hc) x y hin)
    (fun c hc i j x y hi hj hin => hout c (by simpa [isJ] using hc) i j x y hi hj hin)
  refine ⟨M2, ?_, ?_, ?_⟩
  · unfold solveCurrent
    rw [e1, Res.ok_bind, domPar_eq hd]
    exact e2
  · intro i j c x y hi hj hc
    rw [f2 i j c x y (by simpa [isJ] using hc), v1 i j hi hj, h3 i j (M i j) hi hj c hc]
  · intro c hc i j x y hcell
    have := w2 c (by simpa [isJ] using hc) i j x y hcell
    rw [sum_anti domR domZ i j hcell.1 hcell.2.1] at this
    exact add_right_cancel this

/-- The surroundings of a domain are a part of the surroundings of the area. -/
theorem domCtx_eq (p : Par K) {domR domZ : Nat} (hd : Divided p domR domZ) (e : Consts K) (i j : Nat) :
    domCtx p domR domZ e i j = (ctxOf p 0 e).part (low p.nr domR i) (low p.nz domZ j) (hgt p.nr domR i) (hgt p.nz domZ j) := by
  have h1 := winPar_nr p domR domZ i j
  have h2 := winPar_nz p domR domZ i j
  unfold domCtx ctxOf Ctx.part
  rw [domPar_eq hd, h1, h2]
  rfl

end
end Yee
end Pico
