import Verif.Model.ProbeMpi
import Verif.Props.Probe

/-! # C93 — rectangular probes written by several processes -/

set_option linter.unusedSimpArgs false
set_option linter.unusedVariables false
set_option linter.unusedSectionVars false

namespace Pico
namespace Probe

open SMB

/-! ### Specification -/

/-- The writers: every domain of every process, once each or several times, in any order. -/
def Writers (base : Geo) (procs : Nat) (order : List (Nat × (Nat × Nat))) : Prop :=
  ∀ k i j, (k, (i, j)) ∈ order ↔ k < procs ∧ i < base.domR ∧ j < base.domZ / procs

/-- The area starts at the axis and at the left end, every process has at least one domain in each direction and every
domain at least one cell; fewer than 32768 cells in each direction. -/
structure SaneMpi (g : Geo) (procs : Nat) : Prop where
  pos : 0 < procs
  offR : g.offR = 0
  posR : 0 < g.domR
  posZ : procs ≤ g.domZ
  leR : g.domR ≤ g.nr
  leZ : g.domZ / procs ≤ g.nz / procs
  smallR : g.nr < 2 ^ 15
  smallZ : g.nz < 2 ^ 15

variable {T : Type _} [Zero T]

/-- Any list of pieces. -/
theorem pieces_ok (p : Rect) (G : Nat → Nat → T) (hp : p.r0 < p.r1 ∧ p.z0 ≤ p.z1) {A : Type _}
    (dims : A → CellDims) (vals : A → Grid T) :
    ∀ l : List A, (∀ q ∈ l, Holds G (dims q) (vals q) ∧ ((dims q).r0 < (dims q).r1 ∧ (dims q).z0 ≤ (dims q).z1) ∧
        ((dims q).r1 < 2 ^ 15 ∧ (dims q).z1 < 2 ^ 15) ∧ (dims q).r1 ≠ p.r0 ∧ (dims q).r0 ≠ p.r1) →
      ∀ f : Frame T, (f.h = p.r1 - p.r0 ∧ f.w = p.z1 - p.z0) →
      ∃ f', loop (fun (q : A) f => piece p (dims q) (vals q) f) l f = .ok f' ∧
        ∀ a b, f'.cell a b = if p.Has (p.r0 + a) (p.z0 + b) ∧ ∃ q ∈ l, (dims q).Has (p.r0 + a) (p.z0 + b)
          then some (G (p.r0 + a) (p.z0 + b)) else f.cell a b := by
  intro l
  induction l with
  | nil => intro _ f _; exact ⟨f, rfl, by simp⟩
  | cons q l ih =>
    intro hl f hf
    obtain ⟨hG, ⟨d1, d2⟩, ⟨s1, s2⟩, n1, n2⟩ := hl q List.mem_cons_self
    obtain ⟨f1, e1, e2, e3, e4⟩ := piece_ok p (dims q) (vals q) G f hG ⟨d1.le, d2⟩ s1 s2 ⟨hp.1.le, hp.2⟩ hf d1 n1 n2 hp.1
    obtain ⟨f2, k1, k2⟩ := ih (fun q' hq' => hl q' (List.mem_cons_of_mem _ hq')) f1
      ⟨by rw [e2]; exact hf.1, by rw [e3]; exact hf.2⟩
    refine ⟨f2, by rw [loop_cons, e1, Res.ok_bind, k1], ?_⟩
    intro a b
    rw [k2, e4]
    by_cases h1 : p.Has (p.r0 + a) (p.z0 + b) <;> by_cases h2 : (dims q).Has (p.r0 + a) (p.z0 + b) <;>
      by_cases h3 : ∃ q' ∈ l, (dims q').Has (p.r0 + a) (p.z0 + b) <;> simp [h1, h2, h3]

theorem procDims_ok {g : Geo} {procs : Nat} (h : SaneMpi g procs) {k i j : Nat} (hk : k < procs) (hi : i < g.domR)
    (hj : j < g.domZ / procs) :
    ((domDims (procGeo g procs k) i j).r0 < (domDims (procGeo g procs k) i j).r1 ∧
      (domDims (procGeo g procs k) i j).z0 < (domDims (procGeo g procs k) i j).z1) ∧
    (domDims (procGeo g procs k) i j).r1 ≤ g.nr ∧ (domDims (procGeo g procs k) i j).z1 ≤ g.nz / procs * (k + 1) := by
  have hz : 0 < g.domZ / procs := Nat.div_pos h.posZ h.pos
  have b1 := bound_lt g.nr g.domR g.offR i h.posR h.leR
  have b2 := bound_lt (g.nz / procs) (g.domZ / procs) (g.nz / procs * k) j hz h.leZ
  have b3 := bound_mono g.nr g.domR g.offR (show i + 1 ≤ g.domR by omega)
  have b4 := bound_mono (g.nz / procs) (g.domZ / procs) (g.nz / procs * k) (show j + 1 ≤ g.domZ / procs by omega)
  rw [bound_last _ _ _ h.posR, h.offR] at b3
  rw [bound_last _ _ _ hz] at b4
  rw [h.offR] at b1
  unfold domDims procGeo
  simp only [h.offR]
  refine ⟨⟨b1, b2⟩, by omega, ?_⟩
  rw [Nat.mul_succ]
  omega

/-- Which cells the frame has after the writes, whatever the number of cells. -/
theorem assembleMpi_cells (p : Rect) (g : Geo) (procs : Nat) (h : SaneMpi g procs) (vals : Nat → Nat → Nat → Grid T)
    (G : Nat → Nat → T) (order : List (Nat × (Nat × Nat))) (ho : Writers g procs order)
    (hv : ∀ k i j, k < procs → i < g.domR → j < g.domZ / procs →
      Holds G (domDims (procGeo g procs k) i j) (vals k i j))
    (hp : p.r0 < p.r1 ∧ p.z0 ≤ p.z1) (hin : p.r1 ≤ g.nr ∧ p.z1 ≤ g.nz)
    (hedge : ∀ i, 0 < i → i < g.domR → bound g.nr g.domR 0 i ≠ p.r0 ∧ bound g.nr g.domR 0 i ≠ p.r1) :
    ∃ f, assembleMpi p g procs vals order = .ok f ∧ ∀ a b, f.cell a b =
      if p.Has (p.r0 + a) (p.z0 + b) ∧ p.z0 + b < g.nz / procs * procs
        then some (G (p.r0 + a) (p.z0 + b)) else none := by
  have hz : 0 < g.domZ / procs := Nat.div_pos h.posZ h.pos
  have lim : g.nz / procs * procs ≤ g.nz := Nat.div_mul_le_self _ _
  have below : ∀ k, k < procs → g.nz / procs * (k + 1) ≤ g.nz / procs * procs := fun k hk => Nat.mul_le_mul_left _ hk
  have sr := h.smallR
  have sz := h.smallZ
  obtain ⟨f, e, v⟩ := pieces_ok p G hp (fun q : Nat × (Nat × Nat) => domDims (procGeo g procs q.1) q.2.1 q.2.2)
    (fun q => vals q.1 q.2.1 q.2.2) order (by
      rintro ⟨k, i, j⟩ hq
      obtain ⟨hk, hi, hj⟩ := (ho k i j).mp hq
      obtain ⟨⟨d1, d2⟩, d3, d4⟩ := procDims_ok h hk hi hj
      have := below k hk
      have e1 : (domDims (procGeo g procs k) i j).r1 = bound g.nr g.domR 0 (i+1) := by
        unfold domDims procGeo; simp only [h.offR]
      have e0 : (domDims (procGeo g procs k) i j).r0 = bound g.nr g.domR 0 i := by
        unfold domDims procGeo; simp only [h.offR]
      refine ⟨hv k i j hk hi hj, ⟨d1, d2.le⟩, ⟨by dsimp only; omega, by dsimp only; omega⟩, ?_, ?_⟩
      · dsimp only
        by_cases c : i + 1 < g.domR
        · rw [e1]; exact (hedge (i+1) (by omega) c).1
        · have c1 : i + 1 = g.domR := by omega
          rw [e1, c1, bound_last _ _ _ h.posR]
          omega
      · dsimp only
        by_cases c : i = 0
        · rw [e0, c, bound_zero]
          omega
        · rw [e0]; exact (hedge i (by omega) hi).2)
    ⟨p.r1 - p.r0, p.z1 - p.z0, fun _ _ => none⟩ ⟨rfl, rfl⟩
  refine ⟨f, e, ?_⟩
  intro a b
  rw [v]
  have key : p.Has (p.r0 + a) (p.z0 + b) → ((∃ q ∈ order, (domDims (procGeo g procs q.1) q.2.1 q.2.2).Has (p.r0 + a)
      (p.z0 + b)) ↔ p.z0 + b < g.nz / procs * procs) := by
    intro hh
    unfold Rect.Has at hh
    constructor
    · rintro ⟨⟨k, i, j⟩, hq, hH⟩
      obtain ⟨hk, hi, hj⟩ := (ho k i j).mp hq
      obtain ⟨_, _, d4⟩ := procDims_ok h hk hi hj
      have := below k hk
      unfold CellDims.Has at hH
      dsimp only at hH
      omega
    · intro hlt
      have hpos : 0 < g.nz / procs := by
        rcases Nat.eq_zero_or_pos (g.nz / procs) with c | c
        · rw [c, Nat.zero_mul] at hlt; omega
        · exact c
      have hk : (p.z0 + b) / (g.nz / procs) < procs := by rw [Nat.div_lt_iff_lt_mul hpos, Nat.mul_comm]; exact hlt
      set k := (p.z0 + b) / (g.nz / procs) with hkdef
      have l1 : g.nz / procs * k ≤ p.z0 + b := Nat.mul_div_le _ _
      have l2 : p.z0 + b < g.nz / procs * (k + 1) := Nat.lt_mul_div_succ _ hpos
      rw [Nat.mul_succ] at l2
      obtain ⟨q, ⟨hq1, hq2, hq3⟩, _⟩ := (C07_partition (procGeo g procs k) h.posR hz (p.r0 + a) (p.z0 + b)).1 (by
        unfold procGeo
        simp only [h.offR]
        omega)
      exact ⟨(k, q), (ho k q.1 q.2).mpr ⟨hk, hq1, hq2⟩, hq3⟩
  by_cases hh : p.Has (p.r0 + a) (p.z0 + b)
  · simp only [hh, true_and, key hh]
  · simp only [hh, false_and, if_false]

/-! ### Theorems -/

/-- **C93 (partial).**  If the number of processes divides the number of columns, the frame that all processes write
together has at (a, b) exactly the value of cell (start r + a, start z + b) of the area, for all cells of the rectangle and
no others — for every number of processes, every division into domains and every order in which they write.
Missing: rectangles with a radial edge on an inner border between domains and areas of 32768 cells or more, as in C44. -/
theorem C93_partial (p : Rect) (g : Geo) (procs : Nat) (h : SaneMpi g procs) (hdiv : procs ∣ g.nz)
    (vals : Nat → Nat → Nat → Grid T) (G : Nat → Nat → T) (order : List (Nat × (Nat × Nat))) (ho : Writers g procs order)
    (hv : ∀ k i j, k < procs → i < g.domR → j < g.domZ / procs →
      Holds G (domDims (procGeo g procs k) i j) (vals k i j))
    (hp : p.r0 < p.r1 ∧ p.z0 ≤ p.z1) (hin : p.r1 ≤ g.nr ∧ p.z1 ≤ g.nz)
    (hedge : ∀ i, 0 < i → i < g.domR → bound g.nr g.domR 0 i ≠ p.r0 ∧ bound g.nr g.domR 0 i ≠ p.r1) :
    ∃ f, assembleMpi p g procs vals order = .ok f ∧ ∀ a b, f.cell a b =
      if p.Has (p.r0 + a) (p.z0 + b) then some (G (p.r0 + a) (p.z0 + b)) else none := by
  obtain ⟨f, e, v⟩ := assembleMpi_cells p g procs h vals G order ho hv hp hin hedge
  refine ⟨f, e, ?_⟩
  intro a b
  rw [v, Nat.div_mul_cancel hdiv]
  by_cases hh : p.Has (p.r0 + a) (p.z0 + b)
  · rw [if_pos hh, if_pos ⟨hh, by unfold Rect.Has at hh; omega⟩]
  · rw [if_neg hh, if_neg (fun k : _ ∧ _ => hh k.1)]

/-- **The last columns are never written.**  If the number of processes does not divide the number of columns, a rectangle
that reaches the right end of the area is accepted, and its last column stays empty in every frame, whatever the order
of writing. -/
theorem C93_uneven_fails (p : Rect) (g : Geo) (procs : Nat) (h : SaneMpi g procs) (hdiv : ¬ procs ∣ g.nz)
    (vals : Nat → Nat → Nat → Grid T) (G : Nat → Nat → T) (order : List (Nat × (Nat × Nat))) (ho : Writers g procs order)
    (hv : ∀ k i j, k < procs → i < g.domR → j < g.domZ / procs →
      Holds G (domDims (procGeo g procs k) i j) (vals k i j))
    (hp : p.r0 < p.r1 ∧ p.z0 < p.z1) (hin : p.r1 ≤ g.nr ∧ p.z1 = g.nz)
    (hedge : ∀ i, 0 < i → i < g.domR → bound g.nr g.domR 0 i ≠ p.r0 ∧ bound g.nr g.domR 0 i ≠ p.r1) :
    checkRect g.nr g.nz p = .ok p ∧ ∃ f, assembleMpi p g procs vals order = .ok f ∧
      ∀ a, a < p.r1 - p.r0 → f.cell a (p.z1 - p.z0 - 1) = none := by
  obtain ⟨f, e, v⟩ := assembleMpi_cells p g procs h vals G order ho hv ⟨hp.1, hp.2.le⟩ ⟨hin.1, hin.2.le⟩ hedge
  refine ⟨?_, f, e, ?_⟩
  · unfold checkRect
    rw [if_neg (by omega), if_neg (by omega), if_neg (by omega)]
  · intro a ha
    rw [v, if_neg]
    rintro ⟨_, k⟩
    have l1 : g.nz / procs * procs ≤ g.nz := Nat.div_mul_le_self _ _
    have l2 : g.nz / procs * procs ≠ g.nz := fun c => hdiv ⟨g.nz / procs, by rw [Nat.mul_comm]; exact c.symm⟩
    omega

/-! ### Examples -/

/-- Eight columns for two processes with two domains each, written from right to left by turns. -/
def exBaseMpi : Geo := ⟨4, 8, 0, 0, 2, 4, ⟨true, true, true, true⟩, 4, 8, 0, 0, 0⟩
def exOrder : List (Nat × (Nat × Nat)) :=
  [(1, (1, 1)), (0, (1, 1)), (1, (1, 0)), (0, (1, 0)), (1, (0, 1)), (0, (0, 1)), (1, (0, 0)), (0, (0, 0))]

theorem exSaneMpi : SaneMpi exBaseMpi 2 := by constructor <;> decide
theorem exWriters : Writers exBaseMpi 2 exOrder := by
  intro k i j
  simp only [exOrder, List.mem_cons, Prod.mk.injEq, List.mem_nil_iff, or_false, exBaseMpi]
  omega

/-- The grids of the domains when cell `(r, z)` of the area holds `10 r + z`. -/
def exValsMpi (k i j : Nat) : Grid Int :=
  let d := domDims (procGeo exBaseMpi 2 k) i j
  ⟨2, d.r1 - d.r0, d.z1 - d.z0, fun a b => 10 * ((d.r0 + (a - 2) : Nat) : Int) + ((d.z0 + (b - 2) : Nat) : Int)⟩

theorem exHoldsMpi : ∀ k i j, k < 2 → i < exBaseMpi.domR → j < exBaseMpi.domZ / 2 →
    Holds (fun r z => 10 * (r : Int) + z) (domDims (procGeo exBaseMpi 2 k) i j) (exValsMpi k i j) := by
  intro k i j hk hi hj a b ha hb
  obtain ⟨_, d3, d4⟩ := procDims_ok exSaneMpi hk hi hj
  have e1 : exBaseMpi.nr = 4 := rfl
  have e2 : exBaseMpi.nz / 2 = 4 := rfl
  rw [e1] at d3
  rw [e2] at d4
  have u : ∀ x : Nat, x < 100 → Grid.uidx (x : Int) 2 = x + 2 := by
    intro x hx
    unfold Grid.uidx
    omega
  unfold exValsMpi Grid.get Grid.rd Grid.xr Grid.yr
  dsimp only
  rw [u a (by omega), u b (by omega), if_pos (by omega)]
  rfl

example : ∃ f, assembleMpi ⟨1, 3, 4, 8⟩ exBaseMpi 2 exValsMpi exOrder = .ok f ∧ f.cell 0 0 = some 13 ∧
    f.cell 2 4 = some 37 ∧ f.cell 3 0 = none := by
  obtain ⟨f, e, v⟩ := C93_partial (T := Int) ⟨1, 3, 4, 8⟩ exBaseMpi 2 exSaneMpi (by decide) exValsMpi
    (fun r z => 10 * (r : Int) + z) exOrder exWriters exHoldsMpi (by decide) (by decide) (by
      intro i h1 h2
      have : i = 1 := by simp only [exBaseMpi] at h2; omega
      subst this
      decide)
  refine ⟨f, e, ?_, ?_, ?_⟩
  · rw [v, if_pos (by decide)]; rfl
  · rw [v, if_pos (by decide)]; rfl
  · rw [v, if_neg (by decide)]

/-- Nine columns for two processes: the hypotheses of the negative theorem. -/
example : SaneMpi { exBaseMpi with nz := 9 } 2 ∧ ¬ 2 ∣ (9 : Nat) ∧
    ∀ i, 0 < i → i < exBaseMpi.domR → bound exBaseMpi.nr exBaseMpi.domR 0 i ≠ 1 ∧ bound exBaseMpi.nr exBaseMpi.domR 0 i ≠ 4 := by
  refine ⟨by constructor <;> decide, by decide, ?_⟩
  intro i h1 h2
  have : i = 1 := by simp only [exBaseMpi] at h2; omega
  subst this
  decide

end Probe
end Pico
