import Verif.Lemmas.FieldStep
import Mathlib.Algebra.Field.Rat
import Mathlib.Tactic.NormNum

/-!
# C62 — dividing the area into domains does not change the fields

`dividedRun` advances `domR × domZ` field solvers with exchange of overlays, `wholeRun` one solver for the whole area.
-/

set_option linter.unusedSimpArgs false
set_option linter.unusedVariables false
set_option linter.unusedSectionVars false

namespace Pico
namespace Yee

open SMB

variable {K : Type _} [Field K] [CharZero K]

theorem source_iff (c : Comp) : c.isSource = true ↔ ¬ (isE c ∨ isH c) := by
  unfold isE isH
  cases c <;> simp [Comp.isSource]

theorem cellOf_iff (p : Par K) (domR domZ i j : Nat) (x y : Int) :
    CellOf p domR domZ i j x y ↔ i < domR ∧ j < domZ ∧ (winPar p domR domZ i j).logical x y := by
  unfold CellOf Par.logical
  rw [winPar_nr, winPar_nz]

theorem overlayOf_iff (p : Par K) (domR domZ i j : Nat) (x y : Int) :
    OverlayOf p domR domZ i j x y ↔ i < domR ∧ j < domZ ∧ (winPar p domR domZ i j).inside x y := by
  unfold OverlayOf Par.inside
  rw [winPar_nr, winPar_nz]

theorem not_seam (p : Par K) (domR domZ i j : Nat) (x y : Int) (h : (winPar p domR domZ i j).edge x y) :
    ¬ Seam p domR domZ i j x y := by
  unfold Par.edge at h
  rw [winPar_nr, winPar_nz] at h
  unfold Seam
  omega

theorem edge_inside {p : Par K} {x y : Int} (h : p.edge x y) : p.inside x y := h.1

/-- C62, one step: if the fields of the domains are those of the undivided area and the same currents are deposited,
a step of all the domains succeeds and leaves them with the fields of the undivided area after one step.  Currents and media
are left as they are. -/
theorem C62_step (p : Par K) {domR domZ : Nat} (hd : Divided p domR domZ) {M : Solvers K} {m : Mem K}
    (W : ∀ c, c.isSource = false → Windows p domR domZ c M m) {loc : Nat → Nat → Comp → Int → Int → K}
    {src : Comp → Int → Int → K} (hs : SameSources p domR domZ loc src) :
    ∃ M' m', solveMaxwell (domPar p domR domZ) domR domZ (fun i j => setSources (loc i j) (M i j)) = .ok M' ∧
      (calcE p (setSources src m) >>= calcH p) = .ok m' ∧ (∀ c, c.isSource = false → Windows p domR domZ c M' m') ∧
      ∀ i j c x y, i < domR → j < domZ → c.isSource = true → M' i j c x y = loc i j c x y := by
  rw [domPar_eq hd]
  have fld : ∀ c, isE c ∨ isH c → c.isSource = false := fun c h => by
    cases e : c.isSource
    · rfl
    · exact absurd h ((source_iff c).mp e)
  have keepS : ∀ (J : Comp → Int → Int → K) (m : Mem K) c x y, isE c ∨ isH c → setSources J m c x y = m c x y := by
    intro J m c x y h
    unfold setSources
    rw [fld c h]
    rfl
  have winL : ∀ c i j x y, i < domR → j < domZ → (winPar p domR domZ i j).logical x y →
      setSources (loc i j) (M i j) c x y = setSources src m c (low p.nr domR i + x) (low p.nz domZ j + y) := by
    intro c i j x y hi hj hl
    unfold setSources
    cases e : c.isSource
    · have := (W c e i j x y ((overlayOf_iff p domR domZ i j x y).mpr ⟨hi, hj, (Par.logical_edge hl).1⟩)).1
        (not_seam p domR domZ i j x y (Par.logical_edge hl))
      exact this
    · exact hs i j x y c e ((cellOf_iff p domR domZ i j x y).mpr ⟨hi, hj, hl⟩)
  have WE : WinE p domR domZ (fun i j => setSources (loc i j) (M i j)) (setSources src m) := by
    refine ⟨?_, winL⟩
    intro c i j x y hc hi hj he
    rw [keepS _ _ _ _ _ (Or.inr hc), keepS _ _ _ _ _ (Or.inr hc)]
    exact (W c (fld c (Or.inr hc)) i j x y ((overlayOf_iff p domR domZ i j x y).mpr ⟨hi, hj, he.1⟩)).1
      (not_seam p domR domZ i j x y he)
  obtain ⟨m1, M1, e1, E1, a1, a2, a3, a4, a5⟩ := calcE_window p hd WE
  obtain ⟨N1, F1, b1⟩ := each_ok domR domZ (fun i j => calcE (winPar p domR domZ i j)) M1 _ E1
  have isEl : ∀ c, c ∈ [Comp.er, .ep, .ez] ↔ isE c := fun c => by
    unfold isE; simp
  have isHl : ∀ c, c ∈ [Comp.hr, .hp, .hz, .fr, .fp, .fz] ↔ isH c := fun c => by
    unfold isH; simp
  obtain ⟨N2, F2, c1, c2⟩ := overlays_window p hd m1 [.er, .ep, .ez] N1 (by decide)
    (fun c hc i j x y hi hj h1 h2 => by rw [b1 i j hi hj]; exact a3 c i j x y ((isEl c).mp hc) hi hj h1 h2)
    (fun c hc i j x y hi hj h1 => by rw [b1 i j hi hj]; exact a5 c i j x y ((isEl c).mp hc) hi hj h1)
    (fun c hc X Y => a4 c X Y ((isEl c).mp hc))
  have WH : WinH p domR domZ N2 m1 := by
    constructor
    · intro c i j x y hc hi hj he
      exact (c2 c ((isEl c).mpr hc) i j x y hi hj he.1).1 (not_seam p domR domZ i j x y he)
    · intro c i j x y hi hj hl
      by_cases hc : isE c
      · exact (c2 c ((isEl c).mpr hc) i j x y hi hj (Par.logical_edge hl).1).1
          (not_seam p domR domZ i j x y (Par.logical_edge hl))
      · rw [c1 i j c x y (fun k => hc ((isEl c).mp k)), b1 i j hi hj, a1 c i j x y hc hi hj, a2 _ _ _ hc]
        exact winL c i j x y hi hj hl
  obtain ⟨m2, M2, e2, E2, d1, d2, d3, d4, d5⟩ := calcH_window p hd WH
  obtain ⟨N3, F3, f1⟩ := each_ok domR domZ (fun i j => calcH (winPar p domR domZ i j)) M2 _ E2
  obtain ⟨N4, F4, g1, g2⟩ := overlays_window p hd m2 [.hr, .hp, .hz, .fr, .fp, .fz] N3 (by decide)
    (fun c hc i j x y hi hj h1 h2 => by rw [f1 i j hi hj]; exact d3 c i j x y ((isHl c).mp hc) hi hj h1 h2)
    (fun c hc i j x y hi hj h1 => by rw [f1 i j hi hj]; exact d5 c i j x y ((isHl c).mp hc) hi hj h1)
    (fun c hc X Y => d4 c X Y ((isHl c).mp hc))
  refine ⟨N4, m2, ?_, by rw [e1, Res.ok_bind, e2], ?_, ?_⟩
  · unfold solveMaxwell
    rw [F1, Res.ok_bind, F2, Res.ok_bind, F3, Res.ok_bind, F4]
  rotate_left
  · intro i j c x y hi hj hc
    have n := (source_iff c).mp hc
    have nE : ¬ isE c := fun k => n (Or.inl k)
    have nH : ¬ isH c := fun k => n (Or.inr k)
    rw [g1 i j c x y (fun k => nH ((isHl c).mp k)), f1 i j hi hj, d1 c i j x y nH hi hj, c1 i j c x y (fun k => nE ((isEl c).mp k)),
      b1 i j hi hj, a1 c i j x y nE hi hj]
    exact if_pos hc
  · intro c hc i j x y ho
    obtain ⟨hi, hj, hin⟩ := (overlayOf_iff p domR domZ i j x y).mp ho
    by_cases hH : isH c
    · exact g2 c ((isHl c).mpr hH) i j x y hi hj hin
    · have hE : isE c := by
        by_contra hE
        have := (source_iff c).mpr (by tauto)
        rw [this] at hc
        exact nomatch hc
      have := c2 c ((isEl c).mpr hE) i j x y hi hj hin
      rw [g1 i j c x y (fun k => hH ((isHl c).mp k)), f1 i j hi hj, d1 c i j x y hH hi hj, d2 _ _ _ hH]
      exact this

/-- **C62**  For every division, every number of steps and whatever currents and media are deposited, the divided run
succeeds and every domain holds the fields of its part of the undivided run. -/
theorem C62_run (p : Par K) {domR domZ : Nat} (hd : Divided p domR domZ) (loc : Nat → Nat → Nat → Comp → Int → Int → K)
    (src : Nat → Comp → Int → Int → K) (hs : ∀ t, SameSources p domR domZ (loc t) (src t)) (n : Nat) :
    ∃ M m, dividedRun (domPar p domR domZ) domR domZ loc n = .ok M ∧ wholeRun p src n = .ok m ∧
      ∀ c, c.isSource = false → Windows p domR domZ c M m := by
  induction n with
  | zero => exact ⟨_, _, rfl, rfl, fun c _ i j x y _ => ⟨fun _ => rfl, fun _ => rfl⟩⟩
  | succ n ih =>
    obtain ⟨M, m, e1, e2, W⟩ := ih
    obtain ⟨M', m', f1, f2, W', _⟩ := C62_step p hd W (hs n)
    refine ⟨M', m', ?_, ?_, W'⟩
    · show (dividedRun _ _ _ _ n >>= _) = _
      rw [e1, Res.ok_bind]
      exact f1
    · show (wholeRun _ _ n >>= _) = _
      rw [e2, Res.ok_bind]
      exact f2

/-- C62 in terms of the cells alone: what the output of the divided run shows. -/
theorem C62_cells (p : Par K) {domR domZ : Nat} (hd : Divided p domR domZ) (loc : Nat → Nat → Nat → Comp → Int → Int → K)
    (src : Nat → Comp → Int → Int → K) (hs : ∀ t, SameSources p domR domZ (loc t) (src t)) (n : Nat) :
    ∃ M m, dividedRun (domPar p domR domZ) domR domZ loc n = .ok M ∧ wholeRun p src n = .ok m ∧
      ∀ c i j x y, c.isSource = false → CellOf p domR domZ i j x y →
        M i j c x y = m c (low p.nr domR i + x) (low p.nz domZ j + y) := by
  obtain ⟨M, m, e1, e2, W⟩ := C62_run p hd loc src hs n
  refine ⟨M, m, e1, e2, fun c i j x y hc hx => ?_⟩
  obtain ⟨hi, hj, hl⟩ := (cellOf_iff p domR domZ i j x y).mp hx
  exact (W c hc i j x y ((overlayOf_iff p domR domZ i j x y).mpr ⟨hi, hj, (Par.logical_edge hl).1⟩)).1
    (not_seam p domR domZ i j x y (Par.logical_edge hl))

/-! ## Instances -/

/-- A small closed area. -/
def exArea : Par ℚ := ⟨1, 1, 1/10, 1, 0, 4, 4, ⟨true, true, true, true⟩⟩

example : Divided exArea 2 2 := ⟨by decide, by decide, by decide, by decide, by decide, by decide, by decide, by decide, by decide⟩

example : Divided { exArea with nz := 12 } 1 3 := ⟨by decide, by decide, by decide, by decide, by decide, by decide, by decide, by decide, by decide⟩

/-- An axial current in cell (2, 1) of a medium with constant 1, switched on for the first step. -/
def exSrc (t : Nat) : Comp → Int → Int → ℚ
  | .eps, _, _ => 1
  | .jz, x, y => if t = 0 ∧ x = 2 ∧ y = 1 then 1 else 0
  | _, _, _ => 0

/-- The local view of the sources. -/
def exLoc (p : Par K) (domR domZ : Nat) (src : Nat → Comp → Int → Int → K) (t i j : Nat) (c : Comp) (x y : Int) : K :=
  src t c (low p.nr domR i + x) (low p.nz domZ j + y)

example : ∀ t, SameSources exArea 2 2 (exLoc exArea 2 2 exSrc t) (exSrc t) := fun _ _ _ _ _ _ _ _ => rfl

/-- The fields are not trivial: after the first step `E_z` differs from zero where the current flows and `H_phi` in the
cell before it, which belongs to another domain. -/
theorem ex_moves : ∃ m, wholeRun exArea exSrc (0 + 1) = .ok m ∧ m .ez 2 1 = -1/10 ∧ m .hp 1 1 = -1/100 := by
  obtain ⟨m1, e1, k1, k2, k3⟩ := calcE_eq exArea (by decide) (by decide) (by decide) (by decide)
    (setSources (exSrc 0) (fun _ _ _ => 0))
  obtain ⟨m2, e2, l1, l2, l3⟩ := calcH_eq exArea (by decide) m1
  refine ⟨m2, ?_, ?_, ?_⟩
  · rw [wholeRun, wholeRun, Res.ok_bind, e1, Res.ok_bind, e2]
  · rw [l1 _ _ _ (by unfold isH; decide), (k3 2 1 (by decide)).2.2, if_pos (by decide)]
    norm_num [newE, xZ, koefE, koefH, setSources, exSrc, Comp.isSource, exArea]
  · rw [(l2 1 1 (by decide)).2.1, k1 _ _ _ (by unfold isE; decide)]
    have h1 : m1 .ez (1 + 1) 1 = -1/10 := by
      rw [(k3 (1 + 1) 1 (by decide)).2.2, if_pos (by decide)]
      norm_num [newE, xZ, koefE, koefH, setSources, exSrc, Comp.isSource, exArea]
    have h2 : m1 .ez 1 1 = 0 := by
      rw [(k3 1 1 (by decide)).2.2, if_pos (by decide)]
      norm_num [newE, xZ, koefE, koefH, setSources, exSrc, Comp.isSource, exArea]
    have h3 : m1 .er 1 (1 + 1) = 0 := by
      rw [(k3 1 (1 + 1) (by decide)).1, if_pos (by decide)]
      norm_num [newE, xR, koefE, koefH, setSources, exSrc, Comp.isSource, exArea]
    have h4 : m1 .er 1 1 = 0 := by
      rw [(k3 1 1 (by decide)).1, if_pos (by decide)]
      norm_num [newE, xR, koefE, koefH, setSources, exSrc, Comp.isSource, exArea]
    unfold aP
    rw [h1, h2, h3, h4]
    norm_num [setSources, exSrc, Comp.isSource, exArea]

end Yee
end Pico
