import Verif.Spec.FieldStep
import Verif.Lemmas.Halo
import Verif.Lemmas.Yee
import Verif.Props.Overlay
import Mathlib.Tactic.Ring
import Mathlib.Tactic.FieldSimp

/-! Windows of the undivided area in the solvers of the domains. -/

set_option linter.unusedSimpArgs false
set_option linter.unusedVariables false

namespace Pico
namespace Yee

open SMB

variable {K : Type _}

theorem low_zero (n d : Nat) : low n d 0 = 0 := by simp [low]

theorem low_last {n d : Nat} (hd : 1 ≤ d) : low n d d = n := Nat.mul_div_cancel n hd

theorem low_step {n d : Nat} (hd : 1 ≤ d) (h : 2 * d ≤ n) (i : Nat) : low n d i + 2 ≤ low n d (i + 1) := by
  unfold low
  rw [Nat.mul_succ]
  calc n * i / d + 2 = (n * i + d * 2) / d := (Nat.add_mul_div_left _ _ hd).symm
    _ ≤ (n * i + n) / d := Nat.div_le_div_right (by omega)

theorem low_mono {n d : Nat} {i j : Nat} (h : i ≤ j) : low n d i ≤ low n d j :=
  Nat.div_le_div_right (Nat.mul_le_mul_left n h)

/-- The solver parameters of a domain if the cell size is the one of the area. -/
def winPar (p : Par K) (domR domZ i j : Nat) : Par K :=
  let d := domDims (geoOf p domR domZ) i j
  ⟨p.dr, p.dz, p.dt, p.mu, d.r0, d.r1 - d.r0, d.z1 - d.z0, domWalls (geoOf p domR domZ) i j⟩

theorem winPar_nr (p : Par K) (domR domZ i j : Nat) : (winPar p domR domZ i j).nr = hgt p.nr domR i := by
  simp only [winPar, domDims, geoOf, bound, hgt, low]
  omega

theorem winPar_nz (p : Par K) (domR domZ i j : Nat) : (winPar p domR domZ i j).nz = hgt p.nz domZ j := by
  simp only [winPar, domDims, geoOf, bound, hgt, low]
  omega

theorem winPar_r0 (p : Par K) (domR domZ i j : Nat) : (winPar p domR domZ i j).r0 = low p.nr domR i + p.r0 := rfl

theorem hgt_const {n d : Nat} (hd : 1 ≤ d) (h : d ∣ n) (i : Nat) : hgt n d i = n / d := by
  obtain ⟨q, rfl⟩ := h
  unfold hgt low
  rw [Nat.mul_assoc, Nat.mul_assoc, Nat.mul_div_cancel_left _ hd, Nat.mul_div_cancel_left _ hd, Nat.mul_div_cancel_left _ hd,
    Nat.mul_succ]
  omega

theorem Divided.good {p : Par K} {domR domZ : Nat} (h : Divided p domR domZ) :
    Good domR domZ (hgt p.nr domR) (hgt p.nz domZ) := by
  have e1 := h.r4
  have e2 := h.z4
  rcases h.shape with e | e | e3
  · left; omega
  · right; left; omega
  · right; right
    exact ⟨fun i _ => by rw [hgt_const h.r1 e1, hgt_const h.r1 e1], fun j _ => by rw [hgt_const h.z1 e2, hgt_const h.r1 e1, e3]⟩

theorem cellSize_eq [Field K] [CharZero K] {n d : Nat} (hd : 1 ≤ d) (h2 : 2 * d ≤ n) (h : d ∣ n) (x : K) (i : Nat) :
    domCellSize (x * n) n d i = x := by
  have e : bound n d 0 (i + 1) - bound n d 0 i = n / d := hgt_const hd h i
  obtain ⟨q, rfl⟩ := h
  have hq : 0 < q := by
    rcases Nat.eq_zero_or_pos q with rfl | h
    · omega
    · exact h
  have d0 : (d : K) ≠ 0 := Nat.cast_ne_zero.mpr (by omega)
  have q0 : (q : K) ≠ 0 := Nat.cast_ne_zero.mpr (by omega)
  unfold domCellSize
  rw [e, Nat.mul_div_cancel_left _ hd, div_div, div_eq_iff (mul_ne_zero d0 q0)]
  push_cast
  ring

theorem domPar_eq [Field K] [CharZero K] {p : Par K} {domR domZ : Nat} (hd : Divided p domR domZ) :
    domPar p domR domZ = winPar p domR domZ := by
  funext i j
  unfold domPar winPar
  rw [cellSize_eq hd.r1 hd.r2 hd.r4, cellSize_eq hd.z1 hd.z2 hd.z4]

/-- Inside and not in a corner of the overlay. -/
def Par.edge (p : Par K) (x y : Int) : Prop := p.inside x y ∧ ((0 ≤ x ∧ x < p.nr) ∨ (0 ≤ y ∧ y < p.nz))

theorem Par.logical_edge {p : Par K} {x y : Int} (h : p.logical x y) : p.edge x y := by
  unfold Par.logical at h
  unfold Par.edge Par.inside
  omega

section
variable [AddCommMonoid K]

/-- One component after the exchange: the window of a global function that vanishes outside the area. -/
theorem overlay_window (p : Par K) {domR domZ : Nat} (hd : Divided p domR domZ) (c : Comp) (M : Solvers K)
    (g : Int → Int → K)
    (hz : ∀ i j x y, i < domR → j < domZ → (winPar p domR domZ i j).inside x y → ¬ (winPar p domR domZ i j).logical x y →
      M i j c x y = 0)
    (hg : ∀ i j x y, i < domR → j < domZ → (winPar p domR domZ i j).logical x y →
      M i j c x y = g (low p.nr domR i + x) (low p.nz domZ j + y))
    (h0 : ∀ X Y, p.inside X Y → ¬ p.logical X Y → g X Y = 0) :
    ∃ M', overlayComp (winPar p domR domZ) domR domZ c M = .ok M' ∧ (∀ i j c' x y, c' ≠ c → M' i j c' x y = M i j c' x y) ∧
      ∀ i j x y, i < domR → j < domZ → (winPar p domR domZ i j).inside x y →
        (¬ Seam p domR domZ i j x y → M' i j c x y = g (low p.nr domR i + x) (low p.nz domZ j + y)) ∧
        (Seam p domR domZ i j x y → M' i j c x y = 0) := by
  have L : Layout (fun i j => toGrid (winPar p domR domZ i j) (M i j) c) domR domZ 2 (hgt p.nr domR) (hgt p.nz domZ) :=
    ⟨fun _ _ _ _ => rfl, fun i j _ _ => winPar_nr p domR domZ i j, fun i j _ _ => winPar_nz p domR domZ i j⟩
  have hx : ∀ i, 2 ≤ hgt p.nr domR i := fun i => by have := low_step hd.r1 hd.r2 i; unfold hgt; omega
  have hy : ∀ j, 2 ≤ hgt p.nz domZ j := fun j => by have := low_step hd.z1 hd.z2 j; unfold hgt; omega
  have sx : ∀ i, low p.nr domR (i+1) = low p.nr domR i + hgt p.nr domR i := fun i => by
    have := low_step hd.r1 hd.r2 i; unfold hgt; omega
  have sy : ∀ i, low p.nz domZ (i+1) = low p.nz domZ i + hgt p.nz domZ i := fun i => by
    have := low_step hd.z1 hd.z2 i; unfold hgt; omega
  have lx : ∀ i, i < domR → low p.nr domR i + hgt p.nr domR i ≤ p.nr := fun i hi => by
    rw [← sx]; exact (low_mono hi).trans (le_of_eq (low_last hd.r1))
  have ly : ∀ i, i < domZ → low p.nz domZ i + hgt p.nz domZ i ≤ p.nz := fun i hi => by
    rw [← sy]; exact (low_mono hi).trans (le_of_eq (low_last hd.z1))
  have E := pass_exists _ 2 _ _ domR domZ L hd.good
  have H := pass_halo 2 (hgt p.nr domR) (hgt p.nz domZ) domR domZ hd.good (fun i _ => hx i) (fun j _ => hy j)
    (fun x => (toGrid (winPar p domR domZ x.1 x.2.1) (M x.1 x.2.1) c).cell x.2.2.1 x.2.2.2) (by
      intro i j r s hi hj h1 h2 h3
      refine hz i j _ _ hi hj ?_ ?_
      · unfold Par.inside; rw [winPar_nr, winPar_nz]; dsimp only; omega
      · unfold Par.logical; rw [winPar_nr, winPar_nz]; dsimp only; omega)
  generalize hm : ((sweep domR domZ).foldl (stAt 2 (hgt p.nr domR) (hgt p.nz domZ) domR domZ)
    (fun x => (toGrid (winPar p domR domZ x.1 x.2.1) (M x.1 x.2.1) c).cell x.2.2.1 x.2.2.2)) = m' at E H
  -- a logical cell given by its real indices
  have val : ∀ i j r s, i < domR → j < domZ → 2 ≤ r → r < hgt p.nr domR i + 2 → 2 ≤ s → s < hgt p.nz domZ j + 2 →
      (toGrid (winPar p domR domZ i j) (M i j) c).cell r s =
        g (low p.nr domR i + ((r : Int) - 2)) (low p.nz domZ j + ((s : Int) - 2)) := by
    intro i j r s hi hj h1 h2 h3 h4
    refine hg i j _ _ hi hj ?_
    unfold Par.logical
    rw [winPar_nr, winPar_nz]
    omega
  -- an overlay cell at the border of the area
  have out : ∀ i j r s, i < domR → j < domZ → r < hgt p.nr domR i + 4 → s < hgt p.nz domZ j + 4 →
      ¬ p.logical (low p.nr domR i + ((r : Int) - 2)) (low p.nz domZ j + ((s : Int) - 2)) →
      (toGrid (winPar p domR domZ i j) (M i j) c).cell r s =
        g (low p.nr domR i + ((r : Int) - 2)) (low p.nz domZ j + ((s : Int) - 2)) := by
    intro i j r s hi hj h1 h2 h3
    have a1 := lx i hi
    have a2 := ly j hj
    rw [h0 _ _ (by unfold Par.inside; omega) h3]
    refine hz i j _ _ hi hj ?_ ?_
    · unfold Par.inside; rw [winPar_nr, winPar_nz]; omega
    · unfold Par.logical at h3 ⊢; rw [winPar_nr, winPar_nz]; omega
  refine ⟨_, by unfold overlayComp; rw [E, Res.ok_bind], ?_, ?_⟩
  · intro i j c' x y h
    exact if_neg (fun k => h k.1)
  · intro i j x y hi hj hin
    have eq : ofGrid (winPar p domR domZ i j) (M i j) c
        (ofMemD (fun i j => toGrid (winPar p domR domZ i j) (M i j) c) m' i j) c x y = m' (i, j, (x + 2).toNat, (y + 2).toNat) :=
      if_pos ⟨rfl, hin⟩
    rw [eq]
    unfold Par.inside at hin
    rw [winPar_nr, winPar_nz] at hin
    unfold Seam
    obtain ⟨r, rfl⟩ : ∃ r : Nat, x = (r : Int) - 2 := ⟨(x + 2).toNat, by omega⟩
    obtain ⟨s, rfl⟩ : ∃ s : Nat, y = (s : Int) - 2 := ⟨(y + 2).toNat, by omega⟩
    have er : ((r : Int) - 2 + 2).toNat = r := by omega
    have es : ((s : Int) - 2 + 2).toNat = s := by omega
    rw [er, es]
    have a1 := lx i hi
    have a2 := ly j hj
    refine ⟨fun ns => ?_, fun ns => ?_⟩
    swap
    · rw [H.oc i j r s hi hj (by omega) (by omega) (by omega) (by omega)]
      refine hz i j _ _ hi hj ?_ ?_
      · unfold Par.inside; rw [winPar_nr, winPar_nz]; dsimp only; omega
      · unfold Par.logical; rw [winPar_nr, winPar_nz]; dsimp only; omega
    by_cases hc : (r < 2 ∨ hgt p.nr domR i + 2 ≤ r) ∧ (s < 2 ∨ hgt p.nz domZ j + 2 ≤ s)
    · by_cases c1 : hgt p.nr domR i + 2 ≤ r ∧ hgt p.nz domZ j + 2 ≤ s ∧ i + 1 < domR ∧ j + 1 < domZ
      · have b1 := hx (i+1)
        have b2 := hy (j+1)
        rw [(H.hh i j r s c1.2.2.1 c1.2.2.2 c1.1 (by omega) c1.2.1 (by omega)).1 ⟨hi, hj⟩]
        dsimp only
        rw [val (i+1) (j+1) _ _ (by omega) (by omega) (by omega) (by omega) (by omega) (by omega), sx, sy]
        congr 1 <;> omega
      · by_cases c2 : r < 2 ∧ s < 2 ∧ 0 < i ∧ 0 < j
        · obtain ⟨c3, c4, c5, c6⟩ := c2
          obtain ⟨i, rfl⟩ : ∃ k, i = k + 1 := ⟨i - 1, by omega⟩
          obtain ⟨j, rfl⟩ : ∃ k, j = k + 1 := ⟨j - 1, by omega⟩
          have b1 := hx i
          have b2 := hy j
          rw [(H.ll i j r s hi hj c3 c4).1 ⟨by omega, by omega⟩]
          dsimp only
          rw [val i j _ _ (by omega) (by omega) (by omega) (by omega) (by omega) (by omega), sx, sy]
          congr 1 <;> push_cast <;> omega
        · rw [H.oc i j r s hi hj hc.1 hc.2 c1 c2]
          refine out i j r s hi hj (by omega) (by omega) ?_
          intro lg
          unfold Par.logical at lg
          have f1 : i = 0 → low p.nr domR i = 0 := fun e => by rw [e, low_zero]
          have f2 : j = 0 → low p.nz domZ j = 0 := fun e => by rw [e, low_zero]
          have f3 : i + 1 = domR → low p.nr domR i + hgt p.nr domR i = p.nr := fun e => by rw [← sx, e, low_last hd.r1]
          have f4 : j + 1 = domZ → low p.nz domZ j + hgt p.nz domZ j = p.nz := fun e => by rw [← sy, e, low_last hd.z1]
          omega
    by_cases hr : 2 ≤ r ∧ r < hgt p.nr domR i + 2
    · by_cases hs : 2 ≤ s ∧ s < hgt p.nz domZ j + 2
      · rw [H.log i j r s hi hj hr.1 hr.2 hs.1 hs.2]
        exact val i j r s hi hj hr.1 hr.2 hs.1 hs.2
      · by_cases hs2 : s < 2
        · rcases j with _ | j
          · rw [H.oyl i r s hi hs2 hr.1 hr.2]
            exact out i 0 r s hi hj (by omega) (by omega) (by unfold Par.logical; rw [low_zero]; omega)
          · rw [(H.yl i j r s hi hj hs2 hr.1 hr.2).1 ⟨hi, by omega⟩]
            dsimp only
            have b := hy j
            rw [val i j r _ hi (by omega) hr.1 hr.2 (by omega) (by omega), sy]
            congr 1
            push_cast
            omega
        · by_cases hj2 : j + 1 = domZ
          · rw [H.oyh i j r s hi hj2 (by omega) hr.1 hr.2]
            have : low p.nz domZ j + hgt p.nz domZ j = p.nz := by rw [← sy, hj2, low_last hd.z1]
            exact out i j r s hi hj (by omega) (by omega) (by unfold Par.logical; omega)
          · rw [(H.yh i j r s hi (by omega) (by omega) (by omega) hr.1 hr.2).1 ⟨hi, hj⟩]
            dsimp only
            have b := hy (j+1)
            rw [val i (j+1) r _ hi (by omega) hr.1 hr.2 (by omega) (by omega), sy]
            congr 1
            omega
    · have hs : 2 ≤ s ∧ s < hgt p.nz domZ j + 2 := by omega
      by_cases hr2 : r < 2
      · rcases i with _ | i
        · rw [H.oxl j r s hj hr2 hs.1 hs.2]
          exact out 0 j r s hi hj (by omega) (by omega) (by unfold Par.logical; rw [low_zero]; omega)
        · rw [(H.xl i j r s hi hj hr2 hs.1 hs.2).1 ⟨by omega, hj⟩]
          dsimp only
          have b := hx i
          rw [val i j _ s (by omega) hj (by omega) (by omega) hs.1 hs.2, sx]
          congr 1
          push_cast
          omega
      · by_cases hi2 : i + 1 = domR
        · rw [H.oxh i j r s hi2 hj (by omega) hs.1 hs.2]
          have : low p.nr domR i + hgt p.nr domR i = p.nr := by rw [← sx, hi2, low_last hd.r1]
          exact out i j r s hi hj (by omega) (by omega) (by unfold Par.logical; omega)
        · rw [(H.xh i j r s (by omega) hj (by omega) (by omega) hs.1 hs.2).1 ⟨hi, hj⟩]
          dsimp only
          have b := hx (i+1)
          rw [val (i+1) j _ s (by omega) hj (by omega) (by omega) hs.1 hs.2, sx]
          congr 1
          omega

/-- The exchange of several components. -/
theorem overlays_window (p : Par K) {domR domZ : Nat} (hd : Divided p domR domZ) (g : Comp → Int → Int → K) :
    ∀ (cs : List Comp) (M : Solvers K), cs.Nodup →
    (∀ c ∈ cs, ∀ i j x y, i < domR → j < domZ → (winPar p domR domZ i j).inside x y →
      ¬ (winPar p domR domZ i j).logical x y → M i j c x y = 0) →
    (∀ c ∈ cs, ∀ i j x y, i < domR → j < domZ → (winPar p domR domZ i j).logical x y →
      M i j c x y = g c (low p.nr domR i + x) (low p.nz domZ j + y)) →
    (∀ c ∈ cs, ∀ X Y, p.inside X Y → ¬ p.logical X Y → g c X Y = 0) →
    ∃ M', loop (overlayComp (winPar p domR domZ) domR domZ) cs M = .ok M' ∧
      (∀ i j c' x y, c' ∉ cs → M' i j c' x y = M i j c' x y) ∧
      ∀ c ∈ cs, ∀ i j x y, i < domR → j < domZ → (winPar p domR domZ i j).inside x y →
        (¬ Seam p domR domZ i j x y → M' i j c x y = g c (low p.nr domR i + x) (low p.nz domZ j + y)) ∧
        (Seam p domR domZ i j x y → M' i j c x y = 0) := by
  intro cs
  induction cs with
  | nil =>
    intro M _ _ _ _
    exact ⟨M, rfl, fun _ _ _ _ _ _ => rfl, fun c h => absurd h List.not_mem_nil⟩
  | cons c cs ih =>
    intro M nd hz hg h0
    obtain ⟨n1, n2⟩ := List.nodup_cons.mp nd
    obtain ⟨M1, e1, f1, w1⟩ := overlay_window p hd c M (g c) (hz c List.mem_cons_self) (hg c List.mem_cons_self)
      (h0 c List.mem_cons_self)
    have ne : ∀ c' ∈ cs, c' ≠ c := fun c' h e => n1 (e ▸ h)
    obtain ⟨M2, e2, f2, w2⟩ := ih M1 n2
      (fun c' h i j x y a b h1 h2 => by
        rw [f1 _ _ _ _ _ (ne c' h)]; exact hz c' (List.mem_cons_of_mem _ h) i j x y a b h1 h2)
      (fun c' h i j x y a b h1 => by
        rw [f1 _ _ _ _ _ (ne c' h)]; exact hg c' (List.mem_cons_of_mem _ h) i j x y a b h1)
      (fun c' h => h0 c' (List.mem_cons_of_mem _ h))
    refine ⟨M2, by rw [loop_cons, e1, Res.ok_bind, e2], ?_, ?_⟩
    · intro i j c' x y h
      rw [f2 _ _ _ _ _ (fun k => h (List.mem_cons_of_mem _ k)), f1 _ _ _ _ _ (fun k => h (k ▸ List.mem_cons_self))]
    · intro c' h i j x y a b h1
      rcases List.mem_cons.mp h with rfl | h
      · rw [f2 _ _ _ _ _ n1]
        exact w1 i j x y a b h1
      · exact w2 c' h i j x y a b h1

end

/-- A step of all solvers. -/
theorem each_ok (domR domZ : Nat) (f : Nat → Nat → Mem K → Res (Mem K)) (r : Nat → Nat → Mem K) (M : Solvers K)
    (h : ∀ i j, i < domR → j < domZ → f i j (M i j) = .ok (r i j)) :
    ∃ M', each domR domZ f M = .ok M' ∧ ∀ i j, i < domR → j < domZ → M' i j = r i j := by
  have key : ∀ (l : List (Nat × Nat)) (N : Solvers K), l.Nodup → (∀ q ∈ l, q.1 < domR ∧ q.2 < domZ) →
      (∀ q ∈ l, N q.1 q.2 = M q.1 q.2) →
      ∃ M', loop (fun q M => f q.1 q.2 (M q.1 q.2) >>= fun m => .ok (fun i j => if i = q.1 ∧ j = q.2 then m else M i j)) l N
        = .ok M' ∧ ∀ i j, ((i, j) ∈ l → M' i j = r i j) ∧ ((i, j) ∉ l → M' i j = N i j) := by
    intro l
    induction l with
    | nil => intro N _ _ _; exact ⟨N, rfl, fun i j => ⟨fun h => absurd h List.not_mem_nil, fun _ => rfl⟩⟩
    | cons q l ih =>
      intro N nd hl hN
      obtain ⟨n1, n2⟩ := List.nodup_cons.mp nd
      have hq := hl q List.mem_cons_self
      have e1 : f q.1 q.2 (N q.1 q.2) = .ok (r q.1 q.2) := by
        rw [hN q List.mem_cons_self]; exact h _ _ hq.1 hq.2
      obtain ⟨M', e2, w⟩ := ih (fun i j => if i = q.1 ∧ j = q.2 then r q.1 q.2 else N i j) n2
        (fun s hs => hl s (List.mem_cons_of_mem _ hs)) (fun s hs => by
          have : ¬ (s.1 = q.1 ∧ s.2 = q.2) := by
            rintro ⟨a, b⟩
            have : s = q := Prod.ext a b
            exact n1 (this ▸ hs)
          rw [if_neg this, hN s (List.mem_cons_of_mem _ hs)])
      refine ⟨M', ?_, ?_⟩
      · rw [loop_cons]
        rw [e1, Res.ok_bind, Res.ok_bind, e2]
      · intro i j
        have := w i j
        by_cases hl' : (i, j) ∈ l
        · exact ⟨fun _ => this.1 hl', fun k => absurd (List.mem_cons_of_mem _ hl') k⟩
        · have t := this.2 hl'
          constructor
          · intro k
            rcases List.mem_cons.mp k with k | k
            · obtain ⟨a, b⟩ := q
              obtain ⟨rfl, rfl⟩ := Prod.mk.inj k
              rw [t, if_pos ⟨rfl, rfl⟩]
            · exact absurd k hl'
          · intro k
            rw [t, if_neg (fun x => k (List.mem_cons.mpr (Or.inl (Prod.ext x.1 x.2))))]
  obtain ⟨M', e, w⟩ := key (idx2 0 domR 0 domZ) M (nodup_idx2 0 domR 0 domZ) (fun q hq => by
    have := mem_idx2.mp hq; omega) (fun _ _ => rfl)
  exact ⟨M', e, fun i j hi hj => (w i j).1 (mem_idx2.mpr (by dsimp only; omega))⟩

section
variable [Field K]

/-- Bounds of a domain. -/
theorem Divided.bounds {p : Par K} {domR domZ : Nat} (hd : Divided p domR domZ) {i j : Nat} (hi : i < domR) (hj : j < domZ) :
    (2 ≤ hgt p.nr domR i ∧ low p.nr domR i + hgt p.nr domR i ≤ p.nr ∧ (i = 0 → low p.nr domR i = 0) ∧
      (i ≠ 0 → 2 ≤ low p.nr domR i) ∧ (i = domR - 1 → low p.nr domR i + hgt p.nr domR i = p.nr) ∧
      (i ≠ domR - 1 → low p.nr domR i + hgt p.nr domR i + 2 ≤ p.nr)) ∧
    (2 ≤ hgt p.nz domZ j ∧ low p.nz domZ j + hgt p.nz domZ j ≤ p.nz ∧ (j = 0 → low p.nz domZ j = 0) ∧
      (j ≠ 0 → 2 ≤ low p.nz domZ j) ∧ (j = domZ - 1 → low p.nz domZ j + hgt p.nz domZ j = p.nz) ∧
      (j ≠ domZ - 1 → low p.nz domZ j + hgt p.nz domZ j + 2 ≤ p.nz)) := by
  have key : ∀ {n d i : Nat}, 1 ≤ d → 2 * d ≤ n → i < d →
      (2 ≤ hgt n d i ∧ low n d i + hgt n d i ≤ n ∧ (i = 0 → low n d i = 0) ∧ (i ≠ 0 → 2 ≤ low n d i) ∧
        (i = d - 1 → low n d i + hgt n d i = n) ∧ (i ≠ d - 1 → low n d i + hgt n d i + 2 ≤ n)) := by
    intro n d i h1 h2 h3
    have s := low_step h1 h2 i
    have t : low n d i + hgt n d i = low n d (i + 1) := by unfold hgt; omega
    have l := low_last (n := n) h1
    refine ⟨by unfold hgt; omega, ?_, fun e => by rw [e, low_zero], ?_, ?_, ?_⟩
    · rw [t]; exact (low_mono h3).trans (le_of_eq l)
    · intro e
      obtain ⟨k, rfl⟩ : ∃ k, i = k + 1 := ⟨i - 1, by omega⟩
      have := low_step h1 h2 k
      omega
    · intro e
      have : i + 1 = d := by omega
      rw [t, this, l]
    · intro e
      have a := low_step h1 h2 (i+1)
      have b : low n d (i+1+1) ≤ low n d d := low_mono (by omega)
      omega
  exact ⟨key hd.r1 hd.r2 hi, key hd.z1 hd.z2 hj⟩

theorem xZ_window (p : Par K) (domR domZ i j : Nat) (m M : Mem K) (x y : Int) (R : Int) (hR : R = (low p.nr domR i : Int))
    (X Y : Int) (hX : X = R + x) (a : M .jz x y = m .jz X Y) (b : M .hp x y = m .hp X Y) (c : M .hp (x-1) y = m .hp (X-1) Y) :
    xZ (winPar p domR domZ i j) M x y = xZ p m X Y := by
  unfold xZ
  rw [a, b, c, winPar_r0, hX, hR]
  show _ - (_ : K) / p.dr - (_ : K) / (2 * p.dr * _) = _
  congr 3
  push_cast
  ring

/-- The magnetic fields and the currents of the domains are windows of `m`, the electric fields as well but only in
the logical cells. -/
structure WinE (p : Par K) (domR domZ : Nat) (M : Solvers K) (m : Mem K) : Prop where
  h : ∀ c i j x y, isH c → i < domR → j < domZ → (winPar p domR domZ i j).edge x y →
    M i j c x y = m c (low p.nr domR i + x) (low p.nz domZ j + y)
  l : ∀ c i j x y, i < domR → j < domZ → (winPar p domR domZ i j).logical x y →
    M i j c x y = m c (low p.nr domR i + x) (low p.nz domZ j + y)

theorem walls_eq (p : Par K) (domR domZ i j : Nat) :
    ((winPar p domR domZ i j).walls.r0 = if i = 0 then p.walls.r0 else false) ∧
    ((winPar p domR domZ i j).walls.z0 = if j = 0 then p.walls.z0 else false) ∧
    ((winPar p domR domZ i j).walls.rr = if i = domR - 1 then p.walls.rr else false) ∧
    ((winPar p domR domZ i j).walls.zz = if j = domZ - 1 then p.walls.zz else false) := ⟨rfl, rfl, rfl, rfl⟩

/-- Interior bounds of the electric step in local and global indices. -/
theorem range_window (w : Bool) (first last : Bool) (n h lo : Nat) (x : Int) (h2 : 2 ≤ h) (hn : n < 2 ^ 31) (wl : Bool)
    (le : lo + h ≤ n)
    (f1 : first = true → lo = 0) (f2 : first = false → 2 ≤ lo) (g1 : last = true → lo + h = n) (g2 : last = false → lo + h + 2 ≤ n)
    (hx : 0 ≤ x ∧ x < h) :
    (((begin_ (if first then w else false) : Nat) : Int) ≤ x ∧ x < ((end_ (if last then wl else false) h : Nat) : Int) ↔
      ((begin_ w : Nat) : Int) ≤ lo + x ∧ lo + x < ((end_ wl n : Nat) : Int)) ∧
    ((if first then w else false) = true ∧ x = 0 ↔ w = true ∧ (lo : Int) + x = 0) := by
  rw [end_lt _ (by omega) (by omega), end_lt _ (by omega) (by omega)]
  unfold begin_
  cases first <;> cases last <;> cases w <;> cases wl <;>
    simp only [Bool.false_eq_true, if_true, if_false, true_and, false_and, forall_const, reduceCtorEq, IsEmpty.forall_iff] at * <;>
    constructor <;> first | omega | exact ⟨False.elim, fun h => by omega⟩

/-- The electric step of a domain is the window of the electric step of the area. -/
theorem calcE_window (p : Par K) {domR domZ : Nat} (hd : Divided p domR domZ) {M : Solvers K} {m : Mem K}
    (W : WinE p domR domZ M m) :
    ∃ m' : Mem K, ∃ M' : Solvers K, calcE p m = .ok m' ∧
      (∀ i j, i < domR → j < domZ → calcE (winPar p domR domZ i j) (M i j) = .ok (M' i j)) ∧
      (∀ c i j x y, ¬ isE c → i < domR → j < domZ → M' i j c x y = M i j c x y) ∧
      (∀ c x y, ¬ isE c → m' c x y = m c x y) ∧
      (∀ c i j x y, isE c → i < domR → j < domZ → (winPar p domR domZ i j).inside x y →
        ¬ (winPar p domR domZ i j).logical x y → M' i j c x y = 0) ∧
      (∀ c x y, isE c → p.inside x y → ¬ p.logical x y → m' c x y = 0) ∧
      (∀ c i j x y, isE c → i < domR → j < domZ → (winPar p domR domZ i j).logical x y →
        M' i j c x y = m' c (low p.nr domR i + x) (low p.nz domZ j + y)) := by
  have r2 := hd.r2
  have z2 := hd.z2
  have r1 := hd.r1
  have z1 := hd.z1
  have r3 := hd.r3
  have z3 := hd.z3
  obtain ⟨m', e, k1, k2, k3⟩ := calcE_eq p (by omega) (by omega) (by omega) (by omega) m
  have loc : ∀ i j, i < domR → j < domZ → 1 ≤ (winPar p domR domZ i j).nr ∧ (winPar p domR domZ i j).nr < 2 ^ 32 ∧
      1 ≤ (winPar p domR domZ i j).nz ∧ (winPar p domR domZ i j).nz < 2 ^ 32 := by
    intro i j hi hj
    have := hd.bounds hi hj
    rw [winPar_nr, winPar_nz]
    omega
  have ex : ∀ i j, ∃ s : Mem K, i < domR → j < domZ → calcE (winPar p domR domZ i j) (M i j) = .ok s := by
    intro i j
    by_cases h : i < domR ∧ j < domZ
    · obtain ⟨a, b, c, d⟩ := loc i j h.1 h.2
      obtain ⟨s, hs, _⟩ := calcE_eq (winPar p domR domZ i j) a b c d (M i j)
      exact ⟨s, fun _ _ => hs⟩
    · exact ⟨fun _ _ _ => 0, fun a b => absurd ⟨a, b⟩ h⟩
  refine ⟨m', fun i j => (ex i j).choose, e, fun i j hi hj => (ex i j).choose_spec hi hj, ?_, k1, ?_, k2, ?_⟩
  · intro c i j x y hc hi hj
    obtain ⟨a, b, c', d⟩ := loc i j hi hj
    obtain ⟨s, hs, l1, l2, l3⟩ := calcE_eq (winPar p domR domZ i j) a b c' d (M i j)
    have : (ex i j).choose = s := Res.ok.inj (((ex i j).choose_spec hi hj).symm.trans hs)
    dsimp only
    rw [this]
    exact l1 c x y hc
  · intro c i j x y hc hi hj
    obtain ⟨a, b, c', d⟩ := loc i j hi hj
    obtain ⟨s, hs, l1, l2, l3⟩ := calcE_eq (winPar p domR domZ i j) a b c' d (M i j)
    have : (ex i j).choose = s := Res.ok.inj (((ex i j).choose_spec hi hj).symm.trans hs)
    dsimp only
    rw [this]
    exact l2 c x y hc
  · intro c i j x y hE hi hj hl
    obtain ⟨a, b, c', d⟩ := loc i j hi hj
    obtain ⟨s, hs, l1, l2, l3⟩ := calcE_eq (winPar p domR domZ i j) a b c' d (M i j)
    have : (ex i j).choose = s := Res.ok.inj (((ex i j).choose_spec hi hj).symm.trans hs)
    dsimp only
    rw [this]
    have lw := l3 x y hl
    have hb := hd.bounds hi hj
    have hl' := hl
    unfold Par.logical at hl'
    rw [winPar_nr, winPar_nz] at hl'
    have gl : p.logical (low p.nr domR i + x) (low p.nz domZ j + y) := by
      unfold Par.logical
      omega
    have gw := k3 _ _ gl
    obtain ⟨w1, w2, w3, w4⟩ := walls_eq p domR domZ i j
    have rr := range_window p.walls.r0 (decide (i = 0)) (decide (i = domR - 1)) p.nr (hgt p.nr domR i) (low p.nr domR i) x
      hb.1.1 r3 p.walls.rr hb.1.2.1 (fun h => hb.1.2.2.1 (of_decide_eq_true h)) (fun h => hb.1.2.2.2.1 (of_decide_eq_false h))
      (fun h => hb.1.2.2.2.2.1 (of_decide_eq_true h)) (fun h => hb.1.2.2.2.2.2 (of_decide_eq_false h)) hl'.1
    have zz := range_window p.walls.z0 (decide (j = 0)) (decide (j = domZ - 1)) p.nz (hgt p.nz domZ j) (low p.nz domZ j) y
      hb.2.1 z3 p.walls.zz hb.2.2.1 (fun h => hb.2.2.2.1 (of_decide_eq_true h)) (fun h => hb.2.2.2.2.1 (of_decide_eq_false h))
      (fun h => hb.2.2.2.2.2.1 (of_decide_eq_true h)) (fun h => hb.2.2.2.2.2.2 (of_decide_eq_false h)) hl'.2
    simp only [decide_eq_true_eq] at rr zz
    rw [← w1, ← w3, ← winPar_nr p domR domZ i j] at rr
    rw [← w2, ← w4, ← winPar_nz p domR domZ i j] at zz
    -- values read by the stencils
    have up : (winPar p domR domZ i j).edge x (y - 1) := by
      unfold Par.edge Par.inside
      rw [winPar_nr, winPar_nz]
      omega
    have dn : (winPar p domR domZ i j).edge (x - 1) y := by
      unfold Par.edge Par.inside
      rw [winPar_nr, winPar_nz]
      omega
    have hz : ∀ c, isH c → M i j c x (y - 1) = m c (low p.nr domR i + x) (low p.nz domZ j + y - 1) := by
      intro c hc
      rw [W.h c i j x (y-1) hc hi hj up, add_sub_assoc]
    have hr : ∀ c, isH c → M i j c (x - 1) y = m c (low p.nr domR i + x - 1) (low p.nz domZ j + y) := by
      intro c hc
      rw [W.h c i j (x-1) y hc hi hj dn, add_sub_assoc]
    have hc : ∀ c, M i j c x y = m c (low p.nr domR i + x) (low p.nz domZ j + y) := fun c => W.l c i j x y hi hj hl
    have eR : xR (winPar p domR domZ i j) (M i j) x y = xR p m (low p.nr domR i + x) (low p.nz domZ j + y) := by
      unfold xR
      rw [hc, hc, hz .hp (Or.inr (Or.inl rfl))]
      rfl
    have eP : xP (winPar p domR domZ i j) (M i j) x y = xP p m (low p.nr domR i + x) (low p.nz domZ j + y) := by
      unfold xP
      rw [hc, hc, hc, hz .hr (Or.inl rfl), hr .hz (Or.inr (Or.inr (Or.inl rfl)))]
      rfl
    have eA : xA (winPar p domR domZ i j) (M i j) x y = xA p m (low p.nr domR i + x) (low p.nz domZ j + y) := by
      unfold xA
      rw [hc, hc]
      rfl
    have eZ : xZ (winPar p domR domZ i j) (M i j) x y = xZ p m (low p.nr domR i + x) (low p.nz domZ j + y) :=
      xZ_window p domR domZ i j m (M i j) x y _ rfl _ _ rfl (hc _) (hc _) (hr .hp (Or.inr (Or.inl rfl)))
    have eN : ∀ o v, newE (winPar p domR domZ i j) (M i j) x y o v
        = newE p m (low p.nr domR i + x) (low p.nz domZ j + y) o v := by
      intro o v
      unfold newE
      rw [hc, hc]
      rfl
    rcases hE with rfl | rfl | rfl
    · rw [lw.1, gw.1, eN, eR, hc]
      simp only [rr.1, rr.2, zz.1, zz.2]
    · rw [lw.2.1, gw.2.1, eN, eP, hc]
      simp only [rr.1, rr.2, zz.1, zz.2]
    · rw [lw.2.2, gw.2.2, eN, eN, eZ, eA, hc]
      simp only [rr.1, rr.2, zz.1, zz.2]

/-- Windows before the magnetic step: electric fields with the edges of the overlay, everything in the logical cells. -/
structure WinH (p : Par K) (domR domZ : Nat) (M : Solvers K) (m : Mem K) : Prop where
  e : ∀ c i j x y, isE c → i < domR → j < domZ → (winPar p domR domZ i j).edge x y →
    M i j c x y = m c (low p.nr domR i + x) (low p.nz domZ j + y)
  l : ∀ c i j x y, i < domR → j < domZ → (winPar p domR domZ i j).logical x y →
    M i j c x y = m c (low p.nr domR i + x) (low p.nz domZ j + y)

theorem calcH_window (p : Par K) {domR domZ : Nat} (hd : Divided p domR domZ) {M : Solvers K} {m : Mem K}
    (W : WinH p domR domZ M m) :
    ∃ m' : Mem K, ∃ M' : Solvers K, calcH p m = .ok m' ∧
      (∀ i j, i < domR → j < domZ → calcH (winPar p domR domZ i j) (M i j) = .ok (M' i j)) ∧
      (∀ c i j x y, ¬ isH c → i < domR → j < domZ → M' i j c x y = M i j c x y) ∧
      (∀ c x y, ¬ isH c → m' c x y = m c x y) ∧
      (∀ c i j x y, isH c → i < domR → j < domZ → (winPar p domR domZ i j).inside x y →
        ¬ (winPar p domR domZ i j).logical x y → M' i j c x y = 0) ∧
      (∀ c x y, isH c → p.inside x y → ¬ p.logical x y → m' c x y = 0) ∧
      (∀ c i j x y, isH c → i < domR → j < domZ → (winPar p domR domZ i j).logical x y →
        M' i j c x y = m' c (low p.nr domR i + x) (low p.nz domZ j + y)) := by
  have r2 := hd.r2
  have r1 := hd.r1
  obtain ⟨m', e, k1, k3, k2⟩ := calcH_eq p (by omega) m
  have loc : ∀ i j, i < domR → j < domZ → 1 ≤ (winPar p domR domZ i j).nr := by
    intro i j hi hj
    have := hd.bounds hi hj
    rw [winPar_nr]
    omega
  have ex : ∀ i j, ∃ s : Mem K, i < domR → j < domZ → calcH (winPar p domR domZ i j) (M i j) = .ok s := by
    intro i j
    by_cases h : i < domR ∧ j < domZ
    · obtain ⟨s, hs, _⟩ := calcH_eq (winPar p domR domZ i j) (loc i j h.1 h.2) (M i j)
      exact ⟨s, fun _ _ => hs⟩
    · exact ⟨fun _ _ _ => 0, fun a b => absurd ⟨a, b⟩ h⟩
  refine ⟨m', fun i j => (ex i j).choose, e, fun i j hi hj => (ex i j).choose_spec hi hj, ?_, k1, ?_, k2, ?_⟩
  · intro c i j x y hc hi hj
    obtain ⟨s, hs, l1, l3, l2⟩ := calcH_eq (winPar p domR domZ i j) (loc i j hi hj) (M i j)
    have : (ex i j).choose = s := Res.ok.inj (((ex i j).choose_spec hi hj).symm.trans hs)
    dsimp only
    rw [this]
    exact l1 c x y hc
  · intro c i j x y hc hi hj
    obtain ⟨s, hs, l1, l3, l2⟩ := calcH_eq (winPar p domR domZ i j) (loc i j hi hj) (M i j)
    have : (ex i j).choose = s := Res.ok.inj (((ex i j).choose_spec hi hj).symm.trans hs)
    dsimp only
    rw [this]
    exact l2 c x y hc
  · intro c i j x y hE hi hj hl
    obtain ⟨s, hs, l1, l3, l2⟩ := calcH_eq (winPar p domR domZ i j) (loc i j hi hj) (M i j)
    have : (ex i j).choose = s := Res.ok.inj (((ex i j).choose_spec hi hj).symm.trans hs)
    dsimp only
    rw [this]
    have lw := l3 x y hl
    have hb := hd.bounds hi hj
    have hl' := hl
    unfold Par.logical at hl'
    rw [winPar_nr, winPar_nz] at hl'
    have gl : p.logical (low p.nr domR i + x) (low p.nz domZ j + y) := by
      unfold Par.logical
      omega
    have gw := k3 _ _ gl
    have wall : ((winPar p domR domZ i j).walls.rr = true ∧ x = ((winPar p domR domZ i j).nr : Int) - 1) ↔
        (p.walls.rr = true ∧ (low p.nr domR i : Int) + x = (p.nr : Int) - 1) := by
      rw [(walls_eq p domR domZ i j).2.2.1, winPar_nr]
      by_cases h : i = domR - 1
      · rw [if_pos h]
        have := hb.1.2.2.2.2.1 h
        constructor <;> rintro ⟨a, b⟩ <;> exact ⟨a, by omega⟩
      · rw [if_neg h]
        have := hb.1.2.2.2.2.2 h
        constructor
        · rintro ⟨a, b⟩; exact absurd a (by simp)
        · rintro ⟨a, b⟩; omega
    have up : (winPar p domR domZ i j).edge x (y + 1) := by
      unfold Par.edge Par.inside
      rw [winPar_nr, winPar_nz]
      omega
    have dn : (winPar p domR domZ i j).edge (x + 1) y := by
      unfold Par.edge Par.inside
      rw [winPar_nr, winPar_nz]
      omega
    have hz : ∀ c, isE c → M i j c x (y + 1) = m c (low p.nr domR i + x) (low p.nz domZ j + y + 1) := by
      intro c hc
      rw [W.e c i j x (y+1) hc hi hj up, add_assoc]
    have hr : ∀ c, isE c → M i j c (x + 1) y = m c (low p.nr domR i + x + 1) (low p.nz domZ j + y) := by
      intro c hc
      rw [W.e c i j (x+1) y hc hi hj dn, add_assoc]
    have hc : ∀ c, M i j c x y = m c (low p.nr domR i + x) (low p.nz domZ j + y) := fun c => W.l c i j x y hi hj hl
    have eR : aR (winPar p domR domZ i j) (M i j) x y = aR p m (low p.nr domR i + x) (low p.nz domZ j + y) := by
      unfold aR
      rw [hc, hz .ep (Or.inr (Or.inl rfl))]
      rfl
    have eP : aP (winPar p domR domZ i j) (M i j) x y = aP p m (low p.nr domR i + x) (low p.nz domZ j + y) := by
      unfold aP
      rw [hc, hc, hz .er (Or.inl rfl), hr .ez (Or.inr (Or.inr rfl))]
      rfl
    have eZ : aZ (winPar p domR domZ i j) (M i j) x y = aZ p m (low p.nr domR i + x) (low p.nz domZ j + y) := by
      unfold aZ
      rw [hc, hr .ep (Or.inr (Or.inl rfl)), winPar_r0]
      show p.dt * ((_ : K) / (2 * p.dr * _) + (_ : K) / p.dr) / p.mu = _
      congr 5
      push_cast
      ring
    dsimp only at lw gw
    simp only [wall] at lw
    obtain ⟨⟨a1, a2⟩, a3, a4, a5, a6⟩ := lw
    obtain ⟨⟨b1, b2⟩, b3, b4, b5, b6⟩ := gw
    rcases hE with rfl | rfl | rfl | rfl | rfl | rfl
    · rw [a1, b1, eR, hc]
    · rw [a3, b3, eP, hc]
    · rw [a5, b5, eZ, hc]
    · rw [a2, b2, eR, hc]
    · rw [a4, b4, eP, hc]
    · rw [a6, b6, eZ, hc]

end

end Yee
end Pico
