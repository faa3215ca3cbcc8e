import Verif.Lemmas.PicLaws
import Verif.Props.PicSame

/-!
# C100 — the laws of the fields hold in whole runs

`Run E S n T` are `n` passes of the main loop of one process that is divided into domains.  `glue E M` are the grids of the
domains put together, `density E S` is the charge density of the particles at the nodes of the grid.
-/

set_option linter.unusedSimpArgs false
set_option linter.unusedVariables false
set_option linter.unusedSectionVars false

namespace Pico
namespace Pic

open SMB Yee

/-- C100, Gauss's law: in a run of a closed chamber with the Villasenor–Buneman deposition (the default), divided in any
admissible way, the difference between the divergence of `eps E` and the charge density (of the positions that the currents
in the electric step belong to) stays at every inner node what it was at the start.  So a simulation that starts with fields
that belong to its charges always has the fields that belong to its charges.  Full statement (false, see `C19_axial_erases`,
`C18_corner_fails`, `C18_border_start_fails`, `C96_corner_fails`): without the condition that the paths are in general position. -/
theorem C100_gauss_partial {E : Env} (h : Chamber E) (mu : 0 < E.p.mu) (hk : Pusher.Relativistic E.kind)
    (hz : E.dist = VB.currentDistribution) {ids : List Nat} (nd : ids.Nodup) {S : State} (A : Alive E ids S) (I : Insulating E S)
    (N : NoCurrents E S) (n : Nat) (B : ∀ k T, k ≤ n → Run E S k T → NoBorder E T ∧ ∀ T', Step E T T' → GeneralPaths E T')
    {T T' : State} (r : Run E S n T) (s : Step E T T') (X Y : Int) (hx : 1 ≤ X) (hy : 1 ≤ Y) (hx' : X + 1 < E.p.nr) (hy' : Y + 1 < E.p.nz) :
    divElectric E.p (displacement (glue E T'.M) .er) (displacement (glue E T'.M) .ez) X Y - density E T X Y =
      divElectric E.p (displacement (glue E S.M) .er) (displacement (glue E S.M) .ez) X Y - density E S X Y := by
  have L := law_inner h mu hx hy hx' hy'
  obtain ⟨A1, I1, e1⟩ := law_run h hk hz L nd A I n (fun k U hk r => B k U hk.le r) r
  obtain ⟨b1, b2⟩ := B n T le_rfl r
  obtain ⟨_, _, _, e2⟩ := law_step h hk hz L nd A1 b1 I1 s (b2 T' s)
  exact e2.trans (e1.trans (owed_start L h N))

/-- C100, Gauss's law on the axis, away from the first two columns. -/
theorem C100_gauss_axis_partial {E : Env} (h : Chamber E) (mu : 0 < E.p.mu) (hk : Pusher.Relativistic E.kind)
    (hz : E.dist = VB.currentDistribution) {ids : List Nat} (nd : ids.Nodup) {S : State} (A : Alive E ids S) (I : Insulating E S)
    (N : NoCurrents E S) (n : Nat) (B : ∀ k T, k ≤ n → Run E S k T → NoBorder E T ∧ ∀ T', Step E T T' → GeneralPaths E T')
    {T T' : State} (r : Run E S n T) (s : Step E T T') (Y : Int) (hy : 2 ≤ Y) (hy' : Y + 1 < E.p.nz) :
    divElectricAxis E.p (displacement (glue E T'.M) .er) (displacement (glue E T'.M) .ez) Y - density E T 0 Y =
      divElectricAxis E.p (displacement (glue E S.M) .er) (displacement (glue E S.M) .ez) Y - density E S 0 Y := by
  have L := law_axis h mu hy hy'
  obtain ⟨A1, I1, e1⟩ := law_run h hk hz L nd A I n (fun k U hk r => B k U hk.le r) r
  obtain ⟨b1, b2⟩ := B n T le_rfl r
  obtain ⟨_, _, _, e2⟩ := law_step h hk hz L nd A1 b1 I1 s (b2 T' s)
  exact e2.trans (e1.trans (owed_start L h N))

/-- **C100**, magnetic field: in every run from zero fields, with any admissible division, any particles and either deposition
scheme, the magnetic field of the whole chamber (at the time of the electric field and at the half steps) has no sources. -/
theorem C100_magnetic {E : Env} (hd : Divided E.p E.domR E.domZ) (hp : E.p.Good) (hz : Scheme E.dist) {S : State} (Z : NoFields E S)
    {n : Nat} {T : State} (r : Run E S n T) (X Y : Int) (hl : E.p.logical X Y) (hl' : E.p.logical (X + 1) (Y + 1)) :
    divMagnetic E.p (glue E T.M .hr) (glue E T.M .hz) X Y = 0 ∧ divMagnetic E.p (glue E T.M .fr) (glue E T.M .fz) X Y = 0 := by
  obtain ⟨m0, m, F, H, W⟩ := fields_run hd hz Z r
  have l1 : E.p.logical (X + 1) Y := by unfold Par.logical at *; omega
  have l2 : E.p.logical X (Y + 1) := by unfold Par.logical at *; omega
  have c := C15_divergence_free E.p hp F H X Y hl hl'
  unfold divMagnetic at c ⊢
  rw [window_glue hd (W .hr rfl) l1, window_glue hd (W .hr rfl) hl, window_glue hd (W .hz rfl) l2, window_glue hd (W .hz rfl) hl,
    window_glue hd (W .fr rfl) l1, window_glue hd (W .fr rfl) hl, window_glue hd (W .fz rfl) l2, window_glue hd (W .fz rfl) hl]
  exact c

/-- **C100**, walls: in every such run the walls of the chamber are perfect conductors. -/
theorem C100_walls {E : Env} (hd : Divided E.p E.domR E.domZ) (hp : E.p.Good) (hz : Scheme E.dist) {S : State} (Z : NoFields E S)
    {n : Nat} {T : State} (r : Run E S n T) : Conducting E.p (glue E T.M) := by
  obtain ⟨m0, m, F, H, W⟩ := fields_run hd hz Z r
  obtain ⟨a, b, c, d⟩ := C21_conducting E.p hp F H
  refine ⟨fun w i l => ?_, fun w i k l e => ?_, fun w i k l e => ?_, fun w k l => ?_⟩
  · rw [window_glue hd (W .er rfl) l, window_glue hd (W .ep rfl) l]
    exact a w i l
  · rw [window_glue hd (W .er rfl) l, window_glue hd (W .ep rfl) l, window_glue hd (W .ez rfl) l]
    exact b w i k l e
  · rw [window_glue hd (W .er rfl) l, window_glue hd (W .ep rfl) l, window_glue hd (W .ez rfl) l]
    exact c w i k l e
  · rw [window_glue hd (W .ep rfl) l]
    exact d w k l

/-! ### Non-vacuity -/

/-- The example chamber with the default deposition. -/
noncomputable def exVB (R Z : Nat) (q : ℝ) : Env := { exEnv R Z q with dist := VB.currentDistribution }

theorem exVB_chamber : Chamber (exVB 2 2 1) := by
  have h := exEnv_chamber ex_div2 1
  exact ⟨h.r0, h.walls, h.div, h.good, h.c, h.cr, h.cz, h.mass⟩

theorem exVB_place : InPlace (exVB 2 2 1) 0 0 exTurn := by
  have h := exTurn_place
  exact ⟨h.phi, h.dom, h.r1, h.r2, h.z1, h.z2, h.slow, h.cellR, h.cellZ⟩

theorem exVB_alive : Alive (exVB 2 2 1) [7] (exState 0 exTurn) := by
  have A : Alive (exEnv 2 2 1) [7] (exState 0 exTurn) := exState_alive exTurn_place (by rfl)
  refine ⟨A.species, A.once, fun i j hi hj sp hsp o ho => ?_, A.fields⟩
  obtain ⟨rfl, rfl, _⟩ := ex_listed hsp ho
  exact exVB_place

theorem exVB_no_border : NoBorder (exVB 2 2 1) (exState 0 exTurn) :=
  ex_no_border exTurn_place (by norm_num [exTurn, exPart]) (by norm_num [exTurn, exPart])

theorem exTurn_lands : (landed (exVB 2 2 1) exTurn (vel exTurn)).posR = 205/100 ∧ (landed (exVB 2 2 1) exTurn (vel exTurn)).posZ = 21/10 := by
  have l1 : landR (exVB 2 2 1) exTurn (vel exTurn) = 205/100 := by
    unfold landR
    rw [Real.sqrt_eq_iff_mul_self_eq (by positivity) (by norm_num)]
    norm_num [exVB, exEnv, exPart, exTurn, vel]
  have l2 : landZ (exVB 2 2 1) exTurn (vel exTurn) = 21/10 := by norm_num [landZ, exVB, exEnv, exPart, exTurn, vel]
  constructor
  · show Part.mirX true true (1 : ℝ) ((4 : ℕ) * 1) (landR (exVB 2 2 1) exTurn (vel exTurn)) = _
    rw [l1]
    norm_num [Part.mirX]
  · show Part.mirX true true (1 : ℝ) ((4 : ℕ) * 1) (landZ (exVB 2 2 1) exTurn (vel exTurn)) = _
    rw [l2]
    norm_num [Part.mirX]

theorem exVB_heap {T : State} (st : Step (exVB 2 2 1) (exState 0 exTurn) T) : T.heap 0 = landed (exVB 2 2 1) exTurn (vel exTurn) := by
  obtain ⟨M1, e1, g, _⟩ := st
  have hsp : (⟨7, [⟨0, 0, 0⟩]⟩ : Sp) ∈ (exState 0 exTurn).D 0 0 := by simp [exState]
  have ho : (⟨0, 0, 0⟩ : Prt) ∈ (⟨7, [⟨0, 0, 0⟩]⟩ : Sp).parts := by simp
  obtain ⟨v, p1, _, p3⟩ := moves_iff exVB_chamber (Or.inl rfl) exVB_alive exVB_no_border e1 (i := 0) (j := 0) (by show 0 < 2; decide)
    (by show 0 < 2; decide) hsp ho
  have := (p3 _).mp (g 0 0 (by show 0 < 2; decide) (by show 0 < 2; decide) _ hsp _ ho)
  obtain rfl := Res.ok.inj ((p1 true).symm.trans (ex_fly (q := 1) exTurn_place e1 7 true))
  exact this

/-- A path from `(1.9, 1.9)` to `(2.05, 2.1)` in cells of size one. -/
theorem ex_general {p : VB.Part ℝ} (h1 : p.r = 205/100) (h2 : p.z = 21/10) (h3 : p.rOld = 19/10) (h4 : p.zOld = 19/10) (g : Geom ℝ)
    (g1 : g.dr = 1) (g2 : g.dz = 1) : p.General g (1/1000) := by
  have two : ∀ (n : Int) (a : ℝ), 1 < a → a < 3 → a = n → a = 2 := by
    intro n a u v e
    rw [e] at u v ⊢
    have u' : (1 : Int) < n := by exact_mod_cast u
    have v' : n < (3 : Int) := by exact_mod_cast v
    have : n = 2 := by omega
    rw [this]
    norm_num
  have onR : ∀ t, 0 ≤ t → t ≤ 1 → VB.OnR g (p.rAt t) → t = 2/3 := by
    rintro t a b ⟨n, e⟩
    rw [g1, mul_one] at e
    unfold VB.Part.rAt at e
    rw [h1, h3] at e
    have := two n _ (by linarith) (by linarith) e
    linarith
  have onZ : ∀ t, 0 ≤ t → t ≤ 1 → VB.OnZ g (p.zAt t) → t = 1/2 := by
    rintro t a b ⟨n, e⟩
    rw [g2, mul_one] at e
    unfold VB.Part.zAt at e
    rw [h2, h4] at e
    have := two n _ (by linarith) (by linarith) e
    linarith
  refine ⟨⟨?_, ?_⟩, ?_, ?_⟩
  · intro k
    have := onR 0 le_rfl zero_le_one (by unfold VB.Part.rAt; rwa [zero_mul, add_zero])
    norm_num at this
  · intro k
    have := onZ 0 le_rfl zero_le_one (by unfold VB.Part.zAt; rwa [zero_mul, add_zero])
    norm_num at this
  · rintro t a b ⟨c, d⟩
    have e1 := onR t a b c
    have e2 := onZ t a b d
    linarith
  · intro s t hs hst ht c d
    have cs : s = 0 ∨ s = 2/3 ∨ s = 1/2 := by
      rcases c with c | c | c
      · exact Or.inl c
      · exact Or.inr (Or.inl (onR s hs (by linarith) c))
      · exact Or.inr (Or.inr (onZ s hs (by linarith) c))
    have ct : t = 1 ∨ t = 2/3 ∨ t = 1/2 := by
      rcases d with d | d | d
      · exact Or.inl d
      · exact Or.inr (Or.inl (onR t (by linarith) ht d))
      · exact Or.inr (Or.inr (onZ t (by linarith) ht d))
    have far : 1/6 ≤ t - s := by
      rcases cs with rfl | rfl | rfl <;> rcases ct with rfl | rfl | rfl <;> first | linarith | norm_num
    have e1 : p.rAt t - p.rAt s = (t - s) * (15/100) := by unfold VB.Part.rAt; rw [h1, h3]; ring
    have e2 : p.zAt t - p.zAt s = (t - s) * (2/10) := by unfold VB.Part.zAt; rw [h2, h4]; ring
    rw [e1, e2, abs_of_nonneg (by nlinarith), abs_of_nonneg (by nlinarith)]
    constructor <;> nlinarith

/-- The hypotheses of `C100_gauss_partial` for the first step: a charged particle that crosses the borders between four cells
that belong to four domains. -/
example : Chamber (exVB 2 2 1) ∧ 0 < (exVB 2 2 1).p.mu ∧ Alive (exVB 2 2 1) [7] (exState 0 exTurn) ∧ Insulating (exVB 2 2 1) (exState 0 exTurn) ∧
    NoCurrents (exVB 2 2 1) (exState 0 exTurn) ∧ NoFields (exVB 2 2 1) (exState 0 exTurn) ∧ (∃ T, Step (exVB 2 2 1) (exState 0 exTurn) T) ∧
    ∀ k T, k ≤ 0 → Run (exVB 2 2 1) (exState 0 exTurn) k T → NoBorder (exVB 2 2 1) T ∧ ∀ T', Step (exVB 2 2 1) T T' → GeneralPaths (exVB 2 2 1) T' := by
  obtain ⟨S', s1, AS, pm⟩ := C97_step_partial exVB_chamber (Or.inl rfl) (Or.inl rfl) (by simp) exVB_alive exVB_no_border
  have z : ∀ c, c ≠ .eps → exMedium c = fun _ _ => 0 := fun c hc => by funext x y; exact if_neg hc
  have z : ∀ c, c ≠ .eps → ∀ {i j x y}, (exState 0 exTurn).M i j c x y = 0 := fun c hc i j x y => congrFun (congrFun (z c hc) x) y
  refine ⟨exVB_chamber, by norm_num [exVB, exEnv], exVB_alive, ?_, ?_, ?_, ⟨S', (s1 S').mpr rfl⟩, ?_⟩
  · intro i j x y _
    exact ⟨by norm_num [exState, exMedium], z .sig (by decide)⟩
  · intro i j x y _
    exact ⟨z .jr (by decide), z .jz (by decide)⟩
  · intro i j c x y _ hc
    exact if_neg (fun k => by rw [k] at hc; exact (nomatch hc))
  · intro k T hk r
    obtain rfl : k = 0 := by omega
    cases r
    refine ⟨exVB_no_border, fun T' st => ?_⟩
    obtain rfl := (s1 T').mp st
    have e := exVB_heap st
    obtain ⟨l1, l2⟩ := exTurn_lands
    intro i j hi hj sp hsp o ho
    have hid : sp.id = 7 := by
      have : sp.id ∈ [7] := by rw [← AS.species i j]; exact List.mem_map_of_mem hsp
      exact List.mem_singleton.mp this
    have ht : o.tag = 0 := by
      have m := (pm 7 (by simp)).mem_iff.mp (mem_tags.mpr ⟨i, j, hi, hj, sp, hsp, hid, o, ho, rfl⟩)
      exact List.mem_singleton.mp m
    have pl := AS.place i j hi hj sp hsp o ho
    rw [ht, e] at pl ⊢
    have d := pl.dom.rhi
    rw [l1, geom_eq exVB_chamber] at d
    have hi : i < 2 := hi
    have hj : j < 2 := hj
    have i1 : i = 1 := by
      obtain rfl | rfl : i = 0 ∨ i = 1 := by omega
      · norm_num [exVB, exEnv, low, hgt] at d
      · rfl
    have d := pl.dom.zhi
    rw [l2, geom_eq exVB_chamber] at d
    have j1 : j = 1 := by
      obtain rfl | rfl : j = 0 ∨ j = 1 := by omega
      · norm_num [exVB, exEnv, low, hgt] at d
      · rfl
    subst i1 j1
    refine ⟨ex_general l1 l2 rfl rfl _ rfl rfl, ?_⟩
    show ¬ CutsCorner _ 2 2 1 1 _
    unfold CutsCorner
    omega

end Pic
end Pico
