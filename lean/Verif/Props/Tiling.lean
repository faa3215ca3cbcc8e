import Mathlib.Algebra.Order.Field.Basic
import Mathlib.Tactic.FieldSimp
import Mathlib.Tactic.Positivity
import Mathlib.Algebra.Order.Ring.Nat
import Verif.Model.SMB

/-! # C07, C08, C53 — domains and slabs tile the simulation area -/

namespace Pico
namespace SMB

theorem bound_zero (n d off : Nat) : bound n d off 0 = off := by simp [bound]

theorem bound_last (n d off : Nat) (hd : 0 < d) : bound n d off d = n + off := by
  unfold bound; rw [Nat.mul_div_cancel _ hd]

theorem bound_mono (n d off : Nat) {i j : Nat} (h : i ≤ j) : bound n d off i ≤ bound n d off j := by
  unfold bound
  exact Nat.add_le_add_right (Nat.div_le_div_right (Nat.mul_le_mul_left n h)) off

theorem bound_lt (n d off i : Nat) (hd : 0 < d) (h : d ≤ n) :
    bound n d off i < bound n d off (i+1) := by
  unfold bound
  have : n * i / d + 1 ≤ n * (i + 1) / d := by
    rw [← Nat.add_div_right _ hd, Nat.mul_succ]
    exact Nat.div_le_div_right (Nat.add_le_add_left h _)
  omega

theorem bound_strict (n d off : Nat) (hd : 0 < d) (h : d ≤ n) {i j : Nat} (hij : i < j) :
    bound n d off i < bound n d off j :=
  Nat.lt_of_lt_of_le (bound_lt n d off i hd h) (bound_mono n d off hij)

/-- Search for the part that contains a cell. -/
theorem exists_part (f : Nat → Nat) (d c : Nat) (h0 : f 0 ≤ c) (hd : c < f d) :
    ∃ i, i < d ∧ f i ≤ c ∧ c < f (i+1) := by
  induction d with
  | zero => omega
  | succ d ih =>
    by_cases h : c < f d
    · obtain ⟨i, h1, h2⟩ := ih h
      exact ⟨i, by omega, h2⟩
    · exact ⟨d, by omega, by omega, hd⟩

/-! ## C07 -/

/-- Cell `(r, z)` belongs to the rectangle. -/
def CellDims.Has (d : CellDims) (r z : Nat) : Prop := (d.r0 ≤ r ∧ r < d.r1) ∧ (d.z0 ≤ z ∧ z < d.z1)

/-- Every cell of the area belongs to exactly one domain and no domain reaches
outside, for every cell count and every positive domain count, dividing it or not. -/
theorem C07_partition (g : Geo) (hr : 0 < g.domR) (hz : 0 < g.domZ) (r z : Nat) :
    (((g.offR ≤ r ∧ r < g.offR + g.nr) ∧ (g.offZ ≤ z ∧ z < g.offZ + g.nz)) →
      ∃ p : Nat × Nat, (p.1 < g.domR ∧ p.2 < g.domZ ∧ (domDims g p.1 p.2).Has r z) ∧
        ∀ q : Nat × Nat, q.1 < g.domR ∧ q.2 < g.domZ ∧ (domDims g q.1 q.2).Has r z → q = p) ∧
    (∀ i j, i < g.domR → j < g.domZ → (domDims g i j).Has r z →
      (g.offR ≤ r ∧ r < g.offR + g.nr) ∧ (g.offZ ≤ z ∧ z < g.offZ + g.nz)) := by
  constructor
  · rintro ⟨⟨h1, h2⟩, h3, h4⟩
    obtain ⟨i, hi, hi1, hi2⟩ := exists_part (bound g.nr g.domR g.offR) g.domR r
      (by rw [bound_zero]; exact h1) (by rw [bound_last _ _ _ hr]; omega)
    obtain ⟨j, hj, hj1, hj2⟩ := exists_part (bound g.nz g.domZ g.offZ) g.domZ z
      (by rw [bound_zero]; exact h3) (by rw [bound_last _ _ _ hz]; omega)
    refine ⟨(i, j), ⟨hi, hj, ⟨hi1, hi2⟩, hj1, hj2⟩, ?_⟩
    rintro ⟨i', j'⟩ ⟨hi', hj', ⟨a1, a2⟩, a3, a4⟩
    dsimp only [domDims] at a1 a2 a3 a4 hi' hj'
    have e1 : i' = i := by
      rcases Nat.lt_trichotomy i' i with h | h | h
      · have := bound_mono g.nr g.domR g.offR (show i' + 1 ≤ i by omega); omega
      · exact h
      · have := bound_mono g.nr g.domR g.offR (show i + 1 ≤ i' by omega); omega
    have e2 : j' = j := by
      rcases Nat.lt_trichotomy j' j with h | h | h
      · have := bound_mono g.nz g.domZ g.offZ (show j' + 1 ≤ j by omega); omega
      · exact h
      · have := bound_mono g.nz g.domZ g.offZ (show j + 1 ≤ j' by omega); omega
    rw [e1, e2]
  · rintro i j hi hj ⟨⟨h1, h2⟩, h3, h4⟩
    dsimp only [domDims] at h1 h2 h3 h4
    have b1 := bound_mono g.nr g.domR g.offR (Nat.zero_le i)
    have b2 := bound_mono g.nr g.domR g.offR (show i + 1 ≤ g.domR by omega)
    have b3 := bound_mono g.nz g.domZ g.offZ (Nat.zero_le j)
    have b4 := bound_mono g.nz g.domZ g.offZ (show j + 1 ≤ g.domZ by omega)
    rw [bound_zero] at b1 b3
    rw [bound_last _ _ _ hr] at b2
    rw [bound_last _ _ _ hz] at b4
    omega

/-- A domain has a wall on a side exactly when that side lies on the corresponding
side of the area and the area has a wall there (every domain non-empty). -/
theorem C07_walls (g : Geo) (hr : 0 < g.domR) (hz : 0 < g.domZ) (hr' : g.domR ≤ g.nr)
    (hz' : g.domZ ≤ g.nz) (i j : Nat) (hi : i < g.domR) (hj : j < g.domZ) :
    ((domWalls g i j).r0 = true ↔ g.walls.r0 = true ∧ (domDims g i j).r0 = g.offR) ∧
    ((domWalls g i j).z0 = true ↔ g.walls.z0 = true ∧ (domDims g i j).z0 = g.offZ) ∧
    ((domWalls g i j).rr = true ↔ g.walls.rr = true ∧ (domDims g i j).r1 = g.offR + g.nr) ∧
    ((domWalls g i j).zz = true ↔ g.walls.zz = true ∧ (domDims g i j).z1 = g.offZ + g.nz) := by
  have lo : ∀ n d off i, 0 < d → d ≤ n → (bound n d off i = off ↔ i = 0) := by
    intro n d off i h1 h2
    constructor
    · intro h
      by_contra hne
      have := bound_strict n d off h1 h2 (Nat.pos_of_ne_zero hne)
      rw [bound_zero] at this
      omega
    · rintro rfl; exact bound_zero _ _ _
  have hi' : ∀ n d off i, 0 < d → d ≤ n → i < d → (bound n d off (i+1) = off + n ↔ i = d - 1) := by
    intro n d off i h1 h2 h3
    constructor
    · intro h
      by_contra hne
      have := bound_strict n d off h1 h2 (show i + 1 < d by omega)
      rw [bound_last _ _ _ h1] at this
      omega
    · intro h
      rw [show i + 1 = d by omega, bound_last _ _ _ h1]; omega
  unfold domWalls domDims
  dsimp only
  rw [lo _ _ _ _ hr hr', lo _ _ _ _ hz hz', hi' _ _ _ _ hr hr' hi, hi' _ _ _ _ hz hz' hj]
  refine ⟨?_, ?_, ?_, ?_⟩ <;> split <;> simp_all

open Classical in
/-- A domain gets the absorbing layer of a side exactly when it contains a cell of
that layer (layers: the first `pmlZ0` cells in z, the last `pmlR`, `pmlZ` cells).
The area is the whole simulation (no MPI split). -/
theorem C07_layers (g : Geo) (hr : 0 < g.domR) (hz : 0 < g.domZ) (hr' : g.domR ≤ g.nr)
    (hz' : g.domZ ≤ g.nz) (ho : g.offR = 0 ∧ g.offZ = 0) (hg : g.gnr = g.nr ∧ g.gnz = g.nz)
    (i j : Nat) (hi : i < g.domR) (hj : j < g.domZ) :
    ((domPml g i j).1 = (if ∃ r z, (domDims g i j).Has r z ∧ z < g.pmlZ0 then g.pmlZ0 else 0)) ∧
    ((domPml g i j).2.1 = (if ∃ r z, (domDims g i j).Has r z ∧ g.nr < r + 1 + g.pmlR
      then g.pmlR else 0)) ∧
    ((domPml g i j).2.2 = (if ∃ r z, (domDims g i j).Has r z ∧ g.nz < z + 1 + g.pmlZ
      then g.pmlZ else 0)) := by
  have b1 := bound_lt g.nr g.domR g.offR i hr hr'
  have b2 := bound_lt g.nz g.domZ g.offZ j hz hz'
  have b3 := bound_mono g.nr g.domR g.offR (show i + 1 ≤ g.domR by omega)
  have b4 := bound_mono g.nz g.domZ g.offZ (show j + 1 ≤ g.domZ by omega)
  rw [bound_last _ _ _ hr] at b3
  rw [bound_last _ _ _ hz] at b4
  unfold domPml domDims CellDims.Has
  dsimp only
  refine ⟨?_, ?_, ?_⟩
  · refine if_congr ⟨fun h => ⟨_, _, ⟨⟨Nat.le_refl _, b1⟩, Nat.le_refl _, b2⟩, h⟩, ?_⟩ rfl rfl
    rintro ⟨r, z, h, h'⟩
    omega
  · refine if_congr ⟨fun h => ⟨bound g.nr g.domR g.offR (i+1) - 1, _,
      ⟨⟨by omega, by omega⟩, Nat.le_refl _, b2⟩, by omega⟩, ?_⟩ rfl rfl
    rintro ⟨r, z, h, h'⟩
    omega
  · refine if_congr ⟨fun h => ⟨_, bound g.nz g.domZ g.offZ (j+1) - 1,
      ⟨⟨Nat.le_refl _, b1⟩, by omega, by omega⟩, by omega⟩, ?_⟩ rfl rfl
    rintro ⟨r, z, h, h'⟩
    omega

/-- Example geometry: 10 × 21 cells in 4 × 2 domains (nothing divides). -/
def exGeo : Geo :=
  { nr := 10, nz := 21, offR := 0, offZ := 0, domR := 4, domZ := 2,
    walls := ⟨true, true, true, true⟩, gnr := 10, gnz := 21, pmlZ0 := 3, pmlR := 2, pmlZ := 12 }

example : (0 < exGeo.domR ∧ 0 < exGeo.domZ ∧ exGeo.domR ≤ exGeo.nr ∧ exGeo.domZ ≤ exGeo.nz) ∧
    domDims exGeo 1 1 = ⟨2, 10, 5, 21⟩ ∧ domPml exGeo 3 0 = (3, 2, 12) ∧
    domPml exGeo 3 1 = (0, 2, 12) := by decide

/-! ## C53 — every domain uses the cell size of the simulation -/

section
variable {K : Type _} [Field K] [LinearOrder K] [IsStrictOrderedRing K]

theorem domCellSize_eq_iff (size : K) (hs : 0 < size) (cells domains i : Nat)
    (hd : 0 < domains) (hc : domains ≤ cells) :
    domCellSize size cells domains i = size / (cells : K) ↔
      domains * (bound cells domains 0 (i+1) - bound cells domains 0 i) = cells := by
  unfold domCellSize
  have h1 := bound_lt cells domains 0 i hd hc
  generalize hw : bound cells domains 0 (i+1) - bound cells domains 0 i = w
  have hw0 : 0 < w := by omega
  have hdK : (0 : K) < domains := by exact_mod_cast hd
  have hwK : (0 : K) < w := by exact_mod_cast hw0
  have hcK : (0 : K) < cells := by exact_mod_cast (Nat.lt_of_lt_of_le hd hc)
  rw [div_div, div_eq_div_iff (by positivity) (by positivity)]
  constructor
  · intro h
    have h2 : (cells : K) = (domains : K) * w := mul_left_cancel₀ hs.ne' h
    exact_mod_cast h2.symm
  · intro h
    rw [← h]
    push_cast
    rfl

/-- If the number of domains divides the number of cells, every domain computes
the cell size of the simulation (`size / cells`). -/
theorem C53_cell_size_partial (size : K) (hs : 0 < size) (cells domains i : Nat)
    (hd : 0 < domains) (hc : 0 < cells) (hdvd : domains ∣ cells) :
    domCellSize size cells domains i = size / (cells : K) := by
  rw [domCellSize_eq_iff size hs cells domains i hd (Nat.le_of_dvd hc hdvd)]
  obtain ⟨k, rfl⟩ := hdvd
  unfold bound
  rw [Nat.mul_assoc, Nat.mul_assoc, Nat.mul_div_cancel_left _ hd, Nat.mul_div_cancel_left _ hd,
    Nat.mul_succ]
  congr 1
  omega

/-- Otherwise some domain computes a different cell size — even though the
configuration is accepted — so the full claim is false. -/
theorem C53_cell_size_uneven (size : K) (hs : 0 < size) (cells domains : Nat)
    (hd : 0 < domains) (hc : domains ≤ cells) (hdvd : ¬ domains ∣ cells) (i : Nat) :
    domCellSize size cells domains i ≠ size / (cells : K) := by
  rw [Ne, domCellSize_eq_iff size hs cells domains i hd hc]
  exact fun h => hdvd ⟨_, h.symm⟩

end

example : domCellSize (1 : ℚ) 12 4 2 = 1 / 12 ∧ ¬ (4 ∣ 10) ∧
    domCellSize (1 : ℚ) 10 4 0 = 1 / 8 ∧ domCellSize (1 : ℚ) 10 4 1 = 1 / 12 := by
  refine ⟨by decide +kernel, by decide, by decide +kernel, by decide +kernel⟩

/-! ## C08 — slabs of the processes -/

/-- When the number of processes divides the number of cells (and of domains), the
slabs are consecutive, every cell belongs to exactly one of them, the slabs have
together the configured number of domains, and the outer z walls stay only on the
first and last process. -/
theorem C08_slabs_partial (cells domains procs : Nat) (hp : 0 < procs) (h1 : procs ∣ cells)
    (h2 : procs ∣ domains) (w : Bool × Bool) :
    (∀ id, (slab cells domains procs (id+1)).1 = (slab cells domains procs id).2.1) ∧
    (∀ z, z < cells → ∃ id, (id < procs ∧ (slab cells domains procs id).1 ≤ z ∧
        z < (slab cells domains procs id).2.1) ∧
      ∀ id', id' < procs ∧ (slab cells domains procs id').1 ≤ z ∧
        z < (slab cells domains procs id').2.1 → id' = id) ∧
    (∀ z id, id < procs → z < (slab cells domains procs id).2.1 → z < cells) ∧
    (∀ id, procs * (slab cells domains procs id).2.2 = domains) ∧
    (∀ id, id < procs → ((slabWalls w procs id).1 = true ↔ w.1 = true ∧ id = 0) ∧
      ((slabWalls w procs id).2 = true ↔ w.2 = true ∧ id + 1 = procs)) := by
  obtain ⟨q, rfl⟩ := h1
  obtain ⟨e, rfl⟩ := h2
  have hq : procs * q / procs = q := Nat.mul_div_cancel_left q hp
  have he : procs * e / procs = e := Nat.mul_div_cancel_left e hp
  unfold slab
  simp only [hq, he]
  refine ⟨fun _ => trivial, ?_, ?_, fun _ => trivial, ?_⟩
  · intro z hz
    obtain ⟨i, hi, a, b⟩ := exists_part (fun i => q * i) procs z (by simp)
      (by rwa [Nat.mul_comm] at hz)
    refine ⟨i, ⟨hi, a, b⟩, ?_⟩
    rintro i' ⟨hi', a', b'⟩
    rcases Nat.lt_trichotomy i' i with h | h | h
    · have := Nat.mul_le_mul_left q (show i' + 1 ≤ i by omega); omega
    · exact h
    · have := Nat.mul_le_mul_left q (show i + 1 ≤ i' by omega); omega
  · intro z id hid hz
    have := Nat.mul_le_mul_left q (show id + 1 ≤ procs by omega)
    rw [Nat.mul_comm procs q]
    omega
  · intro id hid
    unfold slabWalls
    constructor
    · by_cases h : 0 < id
      · rw [if_pos h]; simp; omega
      · rw [if_neg h]; simp; omega
    · by_cases h : (id : Int) < (procs : Int) - 1
      · simp [h]; omega
      · simp [h]; omega

/-- Without divisibility the slabs do not cover the cells: with 10 cells and 4
processes the cells 8 and 9 belong to no process; with 2 domains and 4 processes no
process has any domain. -/
theorem C08_uneven :
    (∀ id, id < 4 → ¬ ((slab 10 4 4 id).1 ≤ 9 ∧ 9 < (slab 10 4 4 id).2.1)) ∧
    (∀ id, (slab 100 2 4 id).2.2 = 0) := by
  refine ⟨by decide, fun _ => rfl⟩

example : 4 ∣ 64 ∧ 4 ∣ 8 ∧ slab 64 8 4 3 = (48, 64, 2) := by decide

end SMB
end Pico
