import Verif.Spec.PicMpi
import Verif.Lemmas.PicStep
import Verif.Props.CurrentMpi
import Verif.Props.HandMpi

/-! The whole step of several processes. -/

set_option linter.unusedSimpArgs false
set_option linter.unusedVariables false
set_option linter.unusedSectionVars false

namespace Pico
namespace Pic

open SMB Yee

/-! ### Currents -/

section
variable {K : Type _} [Field K] [LinearOrder K] [IsStrictOrderedRing K] [FloorRing K]

/-- The current step of all processes changes nothing but the currents, and it can be done. -/
theorem current_mpi {dist : VB.Ctx K → List (VB.Part K) → Mem K → Res (Mem K)} (hs : Sound dist) (p : Par K) {procs domR domZ : Nat}
    (cap : Nat) (S : Slabs p procs domR domZ) (e : Consts K) (hx : (ctxOf p 0 e).Good) (ps : Nat → Nat → Nat → List (VB.Part K))
    (hp : HousedMpi p procs domR domZ e ps) (M : Nat → Solvers K) :
    (∀ M', CurrentMpi dist p procs domR domZ cap e ps M M' → ∀ k i j c x y, k < procs → i < domR → j < domZ → ¬ isJ c →
      M' k i j c x y = M k i j c x y) ∧
    (domR ≤ cap → ∃ M', CurrentMpi dist p procs domR domZ cap e ps M M') := by
  have hr : ∀ k i j, ∃ r, k < procs → i < domR → j < domZ →
      dist (mpiCtx p procs domR domZ e k i j) (ps k i j) (VB.resetCurrent (mpiCtx p procs domR domZ e k i j).g (M k i j)) = .ok r ∧
      ∀ c, ¬ isJ c → ∀ x y, r c x y = M k i j c x y := by
    intro k i j
    by_cases h : k < procs ∧ i < domR ∧ j < domZ
    · obtain ⟨r, a, b⟩ := hs (mpiCtx p procs domR domZ e k i j) (mpi_good S e hx h.1 h.2.1 h.2.2) (ps k i j) (hp k i j h.1 h.2.1 h.2.2) (M k i j)
      exact ⟨r, fun _ _ _ => ⟨a, b⟩⟩
    · exact ⟨M k i j, fun h1 h2 h3 => absurd ⟨h1, h2, h3⟩ h⟩
  choose r hr using hr
  have ex : ∀ i x, rowOf p domR i x - low p.nr domR i = x := fun i x => by unfold rowOf; omega
  have ey : ∀ k j y, colOf p procs domZ k j y - colStart p procs domZ k j = y := fun k j y => by rw [← col_start S]; omega
  obtain ⟨w1, w2⟩ := mpi_gather dist p cap S e ps M
    (fun c k i j X Y => if (winPar (slabPar p procs k) domR domZ i j).inside (X - low p.nr domR i) (Y - colStart p procs domZ k j) then
      r k i j c (X - low p.nr domR i) (Y - colStart p procs domZ k j) else 0)
    (fun k i j hk hi hj => ⟨r k i j, (hr k i j hk hi hj).1, fun c hc x y hin => by rw [ex, ey, if_pos hin], (hr k i j hk hi hj).2⟩)
    (fun c hc k i j x y hk hi hj hin => by rw [ex, ey, if_neg hin])
  exact ⟨fun M' h k i j c x y hk hi hj hc => (w1 M' h k hk).1 i j c x y hi hj hc, w2⟩

/-- The field step of all processes, if their fields fit together. -/
theorem maxwell_mpi {p : Par K} {procs domR domZ : Nat} (S : Slabs p procs domR domZ) (cap : Nat) {M : Nat → Solvers K} {u : Mem K}
    (H : HoldsMpi p procs domR domZ M u) :
    ∃ u1, (∀ M1, SolveMpi (mpiPar p procs domR domZ) procs domR domZ cap M M1 → HoldsMpi p procs domR domZ M1 u1) ∧
      (domR ≤ cap → ∃ M1, SolveMpi (mpiPar p procs domR domZ) procs domR domZ cap M M1) := by
  have e : (fun k i j => setSources (M k i j) (M k i j)) = M := by
    funext k i j c x y
    exact ite_self _
  have hs : SameSourcesMpi p procs domR domZ (fun k i j => M k i j) (fun c X Y =>
      M (Y.toNat / slabLen p procs) (X.toNat / (p.nr / domR)) ((Y.toNat % slabLen p procs) / (slabLen p procs / domZ)) c
        (X - low p.nr domR (X.toNat / (p.nr / domR)))
        (Y - colStart p procs domZ (Y.toNat / slabLen p procs) ((Y.toNat % slabLen p procs) / (slabLen p procs / domZ)))) := by
    rintro k i j x y c _ ⟨hk, hi, hj, ⟨x0, x1⟩, y0, y1⟩
    have L2 := S.len2
    have b : low (slabLen p procs) domZ j + hgt (slabLen p procs) domZ j ≤ slabLen p procs := (S.hd.bounds S.hd.r1 hj).2.2.1
    have ec : colOf p procs domZ k j y = ((k * slabLen p procs + (low (slabLen p procs) domZ j + y.toNat) : Nat) : Int) := by
      unfold colOf
      push_cast
      omega
    have e1 : (colOf p procs domZ k j y).toNat / slabLen p procs = k := by
      rw [ec, Int.toNat_natCast, Nat.mul_comm, Nat.mul_add_div (by omega), Nat.div_eq_of_lt (by omega), Nat.add_zero]
    have e2 : ((colOf p procs domZ k j y).toNat % slabLen p procs) / (slabLen p procs / domZ) = j := by
      rw [ec, Int.toNat_natCast, Nat.mul_comm, Nat.mul_add_mod, Nat.mod_eq_of_lt (by omega)]
      have := low_add (i := j) S.hd.z1 S.hd.z2 S.hd.z4 y0 y1
      rw [show (low (slabPar p procs 0).nz domZ j : Int) + y = ((low (slabLen p procs) domZ j + y.toNat : Nat) : Int) by
        show (low (slabLen p procs) domZ j : Int) + y = _
        omega, Int.toNat_natCast] at this
      exact this
    dsimp only
    rw [e1, e2]
    unfold rowOf
    have e3 : ((low p.nr domR i : Int) + x).toNat / (p.nr / domR) = i := low_add S.hd.r1 S.hd.r2 S.hd.r4 x0 x1
    rw [e3, ← col_start S]
    rw [add_sub_cancel_left, add_sub_cancel_left]
  obtain ⟨u1, hu⟩ := cutStep_total S (setSources _ u)
  have := step_holds S (cap := cap) H hs hu
  rw [e] at this
  exact ⟨u1, this.1, this.2⟩

end

/-! ### Geometry -/

section
variable {E : Env} {procs : Nat} (h : Shared E procs)
include h

theorem cols_mul : procs * E.cols procs = E.domZ := Nat.mul_div_cancel' h.cols

theorem cols_pos : 0 < E.cols procs := h.slabs.hd.z1

theorem col_lt {k j : Nat} (hk : k < procs) (hj : j < E.cols procs) : k * E.cols procs + j < E.domZ := by
  rw [← cols_mul h]
  calc k * E.cols procs + j < k * E.cols procs + E.cols procs := by omega
    _ = (k + 1) * E.cols procs := by ring
    _ ≤ procs * E.cols procs := Nat.mul_le_mul_right _ hk

theorem col_div {k j : Nat} (hj : j < E.cols procs) : (k * E.cols procs + j) / E.cols procs = k := by
  rw [Nat.mul_comm, Nat.mul_add_div (cols_pos h), Nat.div_eq_of_lt hj, Nat.add_zero]

theorem col_mod {k j : Nat} (hj : j < E.cols procs) : (k * E.cols procs + j) % E.cols procs = j := by
  rw [Nat.mul_comm, Nat.mul_add_mod, Nat.mod_eq_of_lt hj]

theorem col_split {J : Nat} (hJ : J < E.domZ) : J / E.cols procs < procs ∧ J % E.cols procs < E.cols procs ∧
    J = J / E.cols procs * E.cols procs + J % E.cols procs := by
  refine ⟨?_, Nat.mod_lt _ (cols_pos h), ?_⟩
  · rw [Nat.div_lt_iff_lt_mul (cols_pos h), cols_mul h]
    exact hJ
  · rw [Nat.mul_comm]
    exact (Nat.div_add_mod J _).symm

theorem joined_at (D : Nat → Doms) {k j : Nat} (i : Nat) (hj : j < E.cols procs) : joined E procs D i (k * E.cols procs + j) = D k i j := by
  unfold joined
  rw [col_div h hj, col_mod h hj]

theorem cell_len : E.p.nz / E.domZ = slabLen E.p procs / E.cols procs := by
  have e := h.slabs.len
  rw [← cols_mul h]
  conv_lhs => rw [e]
  exact Nat.mul_div_mul_left _ _ h.slabs.p1

theorem low_col (k j : Nat) : low E.p.nz E.domZ (k * E.cols procs + j) = colStart E.p procs (E.cols procs) k j := by
  have d := h.chamber.div
  rw [low_mul d.z1 d.z4, cell_len h]
  unfold colStart
  rw [h.slabs.low_z]
  have e := h.slabs.dlen
  unfold domLen at e ⊢
  conv_rhs => rw [show k * slabLen E.p procs = k * (E.cols procs * (slabLen E.p procs / E.cols procs)) by rw [← e]]
  ring

theorem hgt_col (J j : Nat) : hgt E.p.nz E.domZ J = hgt (slabLen E.p procs) (E.cols procs) j := by
  have d := h.chamber.div
  rw [hgt_const d.z1 d.z4, h.slabs.hgt_z, cell_len h]
  rfl

theorem geom_mpi (k i j : Nat) : E.geomMpi procs k i j = E.geom i (k * E.cols procs + j) := by
  unfold Env.geomMpi
  rw [geom_eq h.chamber, mpiCtx_eq h.slabs, low_col h, hgt_col h _ j]
  show (⟨_, _, low E.p.nr E.domR i + E.p.r0, colStart E.p procs (E.cols procs) k j + 0, _, _⟩ : Geom ℝ) = _
  rw [h.chamber.r0]
  rfl

theorem walls_mpi {k i j : Nat} (hk : k < procs) (hj : j < E.cols procs) : E.wallsMpi procs k i j = E.walls i (k * E.cols procs + j) := by
  rw [walls_eq h.chamber]
  have w : E.p.walls = ⟨true, true, true, true⟩ := h.chamber.walls
  have c0 := cols_pos h
  have m := cols_mul h
  unfold Env.wallsMpi domWalls geoMpi geoOf slabPar slabWalls
  dsimp only
  rw [w]
  dsimp only
  have z0 : (k * E.cols procs + j = 0) ↔ (j = 0 ∧ k = 0) := by
    constructor
    · intro e
      have : k * E.cols procs = 0 := by omega
      rcases Nat.mul_eq_zero.mp this with e1 | e1 <;> omega
    · rintro ⟨rfl, rfl⟩; simp
  have z1 : (k * E.cols procs + j = E.domZ - 1) ↔ (j = E.cols procs - 1 ∧ k = procs - 1) := by
    obtain ⟨q, rfl⟩ : ∃ q, procs = q + 1 := ⟨procs - 1, by omega⟩
    have e : E.domZ = q * E.cols (q + 1) + E.cols (q + 1) := by rw [← m]; ring
    constructor
    · intro e1
      have a1 := col_div h (k := k) hj
      have a2 := col_div h (k := q) (j := E.cols (q + 1) - 1) (by omega)
      rw [e1] at a1
      have e2 : E.domZ - 1 = q * E.cols (q + 1) + (E.cols (q + 1) - 1) := by omega
      rw [e2, a2] at a1
      subst a1
      omega
    · rintro ⟨rfl, rfl⟩
      omega
  congr 1
  · by_cases c : j = 0
    · by_cases d : k = 0
      · rw [if_pos c, if_neg (by omega), decide_eq_true (z0.mpr ⟨c, d⟩)]
      · rw [if_pos c, if_pos (by omega), decide_eq_false (fun e => d (z0.mp e).2)]
    · rw [if_neg c, decide_eq_false (fun e => c (z0.mp e).1)]
  · rw [decide_eq_decide.mpr z1]
    by_cases c : j = E.cols procs - 1
    · by_cases d : k = procs - 1
      · rw [if_pos c, if_neg (by omega), decide_eq_true ⟨c, d⟩]
      · rw [if_pos c, if_pos (by omega), decide_eq_false (fun e => d e.2)]
    · rw [if_neg c, decide_eq_false (fun e => c e.1)]

theorem moves_mpi {k i j : Nat} (hk : k < procs) (hj : j < E.cols procs) (m : Mem ℝ) (id : Nat) (a b : Part ℝ) :
    MovesMpi E procs k i j m id a b ↔ Moves E i (k * E.cols procs + j) m id a b := by
  unfold MovesMpi Moves
  rw [geom_mpi h, walls_mpi h hk hj]

/-! ### Hand-over -/

theorem dims_mpi (k i j : Nat) : domDims (procGeo (geoOf E.p E.domR E.domZ) procs k) i j =
    ⟨low E.p.nr E.domR i, low E.p.nz E.domZ (k * E.cols procs + j), low E.p.nr E.domR (i + 1), low E.p.nz E.domZ (k * E.cols procs + j + 1)⟩ := by
  have e : ∀ j, low (slabLen E.p procs) (E.cols procs) j + slabLen E.p procs * k = low E.p.nz E.domZ (k * E.cols procs + j) := by
    intro j
    rw [low_col h]
    unfold colStart
    ring
  rw [Nat.add_assoc, ← e j, ← e (j + 1)]
  show (⟨low E.p.nr E.domR i + E.p.r0, low (slabLen E.p procs) (E.cols procs) j + slabLen E.p procs * k, low E.p.nr E.domR (i + 1) + E.p.r0,
    low (slabLen E.p procs) (E.cols procs) (j + 1) + slabLen E.p procs * k⟩ : CellDims) = _
  rw [h.chamber.r0]
  rfl

theorem even_world : EvenWorld (geoOf E.p E.domR E.domZ) procs := by
  have d := h.chamber.div
  have r1 := d.r1
  have r2 := d.r2
  have z1 := d.z1
  have z2 := d.z2
  exact ⟨show 0 < E.p.nr by omega, show 0 < E.p.nz by omega, d.r4, d.z4, h.cols, h.chamber.r0⟩

/-- A particle moves at most one column. -/
theorem near_mpi {k i j : Nat} (hj : j < E.cols procs) {a : Part ℝ} {v : Vec3 ℝ}
    (ha : InPlace E i (k * E.cols procs + j) a) (hv : v.length2 < E.c ^ 2) (t : Nat) :
    Near (geoOf E.p E.domR E.domZ) procs k ⟨asInt (landed E a v).cellR, asInt (landed E a v).cellZ, t⟩ := by
  have dz : 0 < E.p.dz := h.chamber.good.geo.dz
  obtain ⟨⟨_, p2, _, p4⟩, _, _, _, q4⟩ := landed_cells h.chamber ha hv
  obtain ⟨_, _, _, s2⟩ := landed_range h.chamber ha hv
  have L2 := h.slabs.len2
  have ow : width (geoOf E.p E.domR E.domZ) procs = slabLen E.p procs := rfl
  have c1 := ha.dom.zlo
  have c2 := ha.dom.zhi
  rw [geom_eq h.chamber] at c1 c2
  dsimp only at c1 c2
  rw [low_col h, hgt_col h _ j] at c2
  rw [low_col h] at c1
  have b : low (slabLen E.p procs) (E.cols procs) j + hgt (slabLen E.p procs) (E.cols procs) j ≤ slabLen E.p procs :=
    (h.slabs.hd.bounds h.slabs.hd.r1 hj).2.2.1
  obtain ⟨n1, n2⟩ := floor_near h.chamber dz s2
  have f1 : ((k * slabLen E.p procs : Nat) : Int) ≤ ⌊a.posZ / E.p.dz⌋ := by
    rw [Int.le_floor, le_div_iff₀ dz]
    refine le_trans (mul_le_mul_of_nonneg_right ?_ dz.le) c1
    rw [Int.cast_natCast]
    exact Nat.cast_le.mpr (by unfold colStart; omega)
  have f2 : ⌊a.posZ / E.p.dz⌋ < (((k + 1) * slabLen E.p procs : Nat) : Int) := by
    rw [Int.floor_lt, div_lt_iff₀ dz]
    refine lt_of_lt_of_le c2 (mul_le_mul_of_nonneg_right ?_ dz.le)
    rw [Int.cast_natCast]
    refine Nat.cast_le.mpr ?_
    unfold colStart
    rw [Nat.add_mul]
    omega
  intro _ _
  rw [ow]
  dsimp only
  rw [p4, q4]
  have m1 : (k + 1) * slabLen E.p procs = slabLen E.p procs * k + slabLen E.p procs := by ring
  have m2 : slabLen E.p procs * (k + 2) = slabLen E.p procs * k + 2 * slabLen E.p procs := by ring
  have m3 : k * slabLen E.p procs = slabLen E.p procs * k := by ring
  rw [m1] at f2
  rw [m3] at f1
  rw [m2]
  refine ⟨?_, ?_, fun _ => p2, fun _ _ => p2⟩
  · push_cast at f1 ⊢
    have : (landed E a v).oldZ = a.posZ := rfl
    omega
  · intro _
    push_cast at f2 ⊢
    omega

end

/-- The domains of all processes are the domains of the area. -/
theorem join_perm {α : Type _} (R procs cols : Nat) (hc : 0 < cols) (F : Nat → Nat → Nat → List α) :
    ((List.range procs).flatMap fun k => (idx2 0 R 0 cols).flatMap fun p => F k p.1 p.2).Perm
      ((idx2 0 R 0 (procs * cols)).flatMap fun q => F (q.2 / cols) q.1 (q.2 % cols)) := by
  let L1 : List (Nat × Nat × Nat) := (List.range procs).flatMap fun k => (idx2 0 R 0 cols).map fun p => (k, p.1, p.2)
  let L2 : List (Nat × Nat × Nat) := (idx2 0 R 0 (procs * cols)).map fun q => (q.2 / cols, q.1, q.2 % cols)
  have n1 : L1.Nodup := by
    refine List.nodup_flatMap.mpr ⟨fun k _ => (nodup_idx2 _ _ _ _).map fun a b e => ?_, ?_⟩
    · exact Prod.ext (congrArg (fun t => t.2.1) e) (congrArg (fun t => t.2.2) e)
    · refine List.Pairwise.imp ?_ List.nodup_range
      intro a b hab x hx hy
      obtain ⟨p, _, rfl⟩ := List.mem_map.mp hx
      obtain ⟨q, _, e⟩ := List.mem_map.mp hy
      exact hab (congrArg Prod.fst e).symm
  have n2 : L2.Nodup := by
    refine (nodup_idx2 _ _ _ _).map fun a b e => ?_
    have e1 := congrArg Prod.fst e
    have e2 := congrArg (fun t => t.2.1) e
    have e3 := congrArg (fun t => t.2.2) e
    dsimp only at e1 e2 e3
    refine Prod.ext e2 ?_
    rw [← Nat.div_add_mod a.2 cols, ← Nat.div_add_mod b.2 cols, e1, e3]
  have p : L1.Perm L2 := by
    refine (List.perm_ext_iff_of_nodup n1 n2).mpr ?_
    rintro ⟨k, i, j⟩
    constructor
    · intro hx
      obtain ⟨k', hk, hx⟩ := List.mem_flatMap.mp hx
      obtain ⟨p, hp, e⟩ := List.mem_map.mp hx
      obtain ⟨rfl, rfl, rfl⟩ : k' = k ∧ p.1 = i ∧ p.2 = j :=
        ⟨congrArg Prod.fst e, congrArg (fun t => t.2.1) e, congrArg (fun t => t.2.2) e⟩
      have hk := List.mem_range.mp hk
      have hp := mem_idx2.mp hp
      refine List.mem_map.mpr ⟨(p.1, k' * cols + p.2), mem_idx2.mpr ⟨hp.1, ⟨by omega, ?_⟩⟩, ?_⟩
      · have : (k' + 1) * cols ≤ procs * cols := Nat.mul_le_mul_right _ hk
        rw [Nat.add_mul] at this
        dsimp only
        omega
      · dsimp only
        rw [Nat.mul_comm k', Nat.mul_add_div hc, Nat.mul_add_mod, Nat.div_eq_of_lt (by omega), Nat.mod_eq_of_lt (by omega), Nat.add_zero]
    · intro hx
      obtain ⟨q, hq, e⟩ := List.mem_map.mp hx
      obtain ⟨rfl, rfl, rfl⟩ : q.2 / cols = k ∧ q.1 = i ∧ q.2 % cols = j :=
        ⟨congrArg Prod.fst e, congrArg (fun t => t.2.1) e, congrArg (fun t => t.2.2) e⟩
      have hq := mem_idx2.mp hq
      refine List.mem_flatMap.mpr ⟨q.2 / cols, List.mem_range.mpr ?_, List.mem_map.mpr ⟨(q.1, q.2 % cols), mem_idx2.mpr ⟨hq.1, ?_⟩, rfl⟩⟩
      · rw [Nat.div_lt_iff_lt_mul hc]
        omega
      · exact ⟨Nat.zero_le _, Nat.mod_lt _ hc⟩
  have := p.flatMap_right fun t => F t.1 t.2.1 t.2.2
  have e1 : L1.flatMap (fun t => F t.1 t.2.1 t.2.2) = (List.range procs).flatMap fun k => (idx2 0 R 0 cols).flatMap fun p => F k p.1 p.2 := by
    show ((List.range procs).flatMap fun k => (idx2 0 R 0 cols).map fun p => (k, p.1, p.2)).flatMap _ = _
    rw [List.flatMap_assoc]
    simp only [List.flatMap_map]
  have e2 : L2.flatMap (fun t => F t.1 t.2.1 t.2.2) = (idx2 0 R 0 (procs * cols)).flatMap fun q => F (q.2 / cols) q.1 (q.2 % cols) := by
    show ((idx2 0 R 0 (procs * cols)).map fun q => (q.2 / cols, q.1, q.2 % cols)).flatMap _ = _
    rw [List.flatMap_map]
  rw [e1, e2] at this
  exact this

theorem length_flatMap_le {α β γ : Type _} (l : List α) (f : α → List β) (g : α → List γ) (h : ∀ a ∈ l, (f a).length ≤ (g a).length) :
    (l.flatMap f).length ≤ (l.flatMap g).length := by
  induction l with
  | nil => exact le_refl _
  | cons a l ih =>
    rw [List.flatMap_cons, List.flatMap_cons, List.length_append, List.length_append]
    have h1 := h a List.mem_cons_self
    have h2 := ih fun b hb => h b (List.mem_cons_of_mem _ hb)
    omega

theorem length_le_flatMap {α β : Type _} (l : List α) (f : α → List β) {a : α} (h : a ∈ l) : (f a).length ≤ (l.flatMap f).length := by
  induction l with
  | nil => exact absurd h List.not_mem_nil
  | cons b l ih =>
    rw [List.flatMap_cons, List.length_append]
    rcases List.mem_cons.mp h with rfl | h
    · omega
    · have := ih h
      omega

/-- The queues are not longer than the number of particles. -/
theorem queue_len {base : Geo} {procs : Nat} (W : EvenWorld base procs) {ids : List Nat} (nd : ids.Nodup) {D : Nat → Doms}
    (hD : ∀ k i j, k < procs → (D k i j).map Sp.id = ids) {k : Nat} (hk : k < procs) {Q : MState}
    (hQ : collectM (procGeo base procs k) (D k) = .ok Q) :
    Q.plus.length ≤ ((List.range procs).flatMap fun k => (allDoms (procGeo base procs k)).flatMap fun p => ids.flatMap fun id =>
      SMB.parts (D k) p.1 p.2 id).length ∧
    Q.minus.length ≤ ((List.range procs).flatMap fun k => (allDoms (procGeo base procs k)).flatMap fun p => ids.flatMap fun id =>
      SMB.parts (D k) p.1 p.2 id).length := by
  obtain ⟨A, B, E, _⟩ := W.even k
  rw [doms_rep (D k) ids nd fun i j => hD k i j hk, collectM_even E ids nd] at hQ
  have hQ := Res.ok.inj hQ
  have key : ∀ P : Prt → Bool, ((sweep (procGeo base procs k).domR (procGeo base procs k).domZ).flatMap fun p =>
      picks P (fun id => SMB.parts (D k) p.1 p.2 id) ids).length ≤
      ((List.range procs).flatMap fun k => (allDoms (procGeo base procs k)).flatMap fun p => ids.flatMap fun id => SMB.parts (D k) p.1 p.2 id).length := by
    intro P
    refine le_trans ?_ (length_le_flatMap _ _ (List.mem_range.mpr hk))
    rw [((allDoms_sweep (procGeo base procs k)).flatMap_right _).length_eq]
    refine length_flatMap_le _ _ _ fun p _ => ?_
    unfold picks
    exact length_flatMap_le _ _ _ fun id _ => List.length_filter_le _ _
  rw [← hQ]
  exact ⟨key _, key _⟩

theorem hrun_congr {M : Type _} {cap n m : Nat} {plus minus plus' minus' : Nat → List M} {s : Mpi.HState M}
    (h1 : ∀ k, k < n → plus k = plus' k) (h2 : ∀ k, k < n → minus k = minus' k) (r : Mpi.HRun cap n plus minus m s) :
    Mpi.HRun cap n plus' minus' m s := by
  have e : Mpi.hinit n plus minus = Mpi.hinit n plus' minus' := by
    unfold Mpi.hinit
    congr 1
    funext k
    unfold Mpi.hprog
    by_cases c : k < n
    · rw [h1 k c, h2 k c]
    · rw [if_neg (by omega), if_neg (by omega), if_neg (by omega), if_neg (by omega), if_neg (by omega), if_neg (by omega)]
  induction r with
  | start => rw [e]; exact .start
  | step _ st ih => exact ih.step st

section
variable {E : Env} {procs : Nat} (h : Shared E procs)
include h

/-- The hand-over of all processes after the move: nothing is lost, everything is in its place. -/
theorem handover_mpi {ids : List Nat} (nd : ids.Nodup) {S : StateMpi} (A : AliveMpi E procs ids S) {heap : Nat → Part ℝ}
    (H : ∀ k i j, k < procs → i < E.domR → j < E.cols procs → ∀ sp ∈ S.D k i j, ∀ o ∈ sp.parts,
      ∃ v, v.length2 < E.c ^ 2 ∧ heap o.tag = landed E (S.heap o.tag) v) (cap : Nat) :
    (∀ D', HandOver (geoOf E.p E.domR E.domZ) procs cap (fun o => (heap o.tag).specieId) (fun k => cellsOf heap (S.D k)) D' →
      (∀ k i j, k < procs → (D' k i j).map Sp.id = ids) ∧
      (∀ id ∈ ids, (tagsOf E (joined E procs D') id).Perm (tagsOf E (joined E procs S.D) id)) ∧
      ∀ i J, i < E.domR → J < E.domZ → ∀ sp ∈ joined E procs D' i J, ∀ o ∈ sp.parts,
        InPlace E i J (heap o.tag) ∧ (heap o.tag).specieId = sp.id) ∧
    (amount E procs ids S + 1 ≤ cap →
      ∃ D', HandOver (geoOf E.p E.domR E.domZ) procs cap (fun o => (heap o.tag).specieId) (fun k => cellsOf heap (S.D k)) D') := by
  have Hj : ∀ i J, i < E.domR → J < E.domZ → ∀ sp ∈ joined E procs S.D i J, ∀ o ∈ sp.parts,
      ∃ v, v.length2 < E.c ^ 2 ∧ heap o.tag = landed E (S.heap o.tag) v := by
    intro i J hi hJ sp hsp o ho
    obtain ⟨a, b, _⟩ := col_split h hJ
    exact H _ i _ a hi b sp hsp o ho
  have at' : ∀ k i j, k < procs → i < E.domR → j < E.cols procs → ∀ sp ∈ S.D k i j, ∀ o ∈ sp.parts,
      InPlace E i (k * E.cols procs + j) (S.heap o.tag) ∧ (S.heap o.tag).specieId = sp.id := by
    intro k i j hk hi hj sp hsp o ho
    have hJ := col_lt h hk hj
    rw [← joined_at h S.D i hj] at hsp
    exact ⟨A.place i _ hi hJ sp hsp o ho, A.number i _ hi hJ sp hsp o ho⟩
  have sp0 : ∀ k i j, k < procs → (cellsOf heap (S.D k) i j).map Sp.id = ids := by
    intro k i j hk
    rw [← A.species k i j hk]
    unfold cellsOf
    rw [List.map_map]
    rfl
  have W : World (geoOf E.p E.domR E.domZ) procs (fun o => (heap o.tag).specieId) ids (fun k => cellsOf heap (S.D k)) := by
    refine ⟨nd, sp0, ?_⟩
    intro k i j id hk hi hj o ho
    rw [parts_cells] at ho
    obtain ⟨o', ho', rfl⟩ := List.mem_map.mp ho
    obtain ⟨sp, hsp, rfl, hm⟩ := mem_parts.mp ho'
    obtain ⟨v, _, e⟩ := H k i j hk hi hj sp hsp o' hm
    dsimp only
    rw [e]
    exact (at' k i j hk hi hj sp hsp o' hm).2
  obtain ⟨Q, hQ, hdel⟩ := C87_handover_partial (geoOf E.p E.domR E.domZ) procs (even_world h) (fun o => (heap o.tag).specieId) ids
    (fun k => cellsOf heap (S.D k)) W (by
      intro k i j id hk hi hj o ho
      rw [parts_cells] at ho
      obtain ⟨o', ho', rfl⟩ := List.mem_map.mp ho
      obtain ⟨sp, hsp, rfl, hm⟩ := mem_parts.mp ho'
      obtain ⟨v, hv, e⟩ := H k i j hk hi hj sp hsp o' hm
      rw [e]
      exact near_mpi h hj (at' k i j hk hi hj sp hsp o' hm).1 hv _)
  refine ⟨?_, ?_⟩
  · rintro D' ⟨Q', hQ', m, s, hrun, hfin, hins⟩
    have eQ : ∀ k, k < procs → Q' k = Q k := fun k hk => Res.ok.inj ((hQ' k hk).symm.trans (hQ k hk))
    obtain ⟨D'', i1, i2, i3⟩ := hdel cap m s (hrun_congr (fun k hk => by rw [eQ k hk]) (fun k hk => by rw [eQ k hk]) hrun) hfin
    have eD : ∀ k, k < procs → D' k = D'' k := by
      intro k hk
      have a := hins k hk
      rw [eQ k hk, i1 k hk] at a
      exact (Res.ok.inj a).symm
    have k1 : ∀ k i j, k < procs → (D' k i j).map Sp.id = ids := fun k i j hk => by rw [eD k hk]; exact i2 k i j
    let l : Nat → List Prt := fun id => (allDoms (geoOf E.p E.domR E.domZ)).flatMap fun q => SMB.parts (cellsOf heap (joined E procs S.D)) q.1 q.2 id
    have k2 : ∀ i J id, i < E.domR → J < E.domZ → id ∈ ids → (SMB.parts (joined E procs D') i J id).Perm
        ((l id).filter fun o => (⟨low E.p.nr E.domR i, low E.p.nz E.domZ J, low E.p.nr E.domR (i + 1), low E.p.nz E.domZ (J + 1)⟩ : CellDims).Owns o) := by
      intro i J id hi hJ hid
      obtain ⟨a, b, e⟩ := col_split h hJ
      have := i3 _ i _ id a hi b hid
      rw [dims_mpi h, ← e, ← eD _ a] at this
      refine this.trans ?_
      have jp := join_perm E.domR procs (E.cols procs) (cols_pos h) (fun k a b => (SMB.parts (cellsOf heap (S.D k)) a b id).filter
        fun o => decide ((⟨low E.p.nr E.domR i, low E.p.nz E.domZ J, low E.p.nr E.domR (i + 1), low E.p.nz E.domZ (J + 1)⟩ : CellDims).Owns o))
      rw [cols_mul h] at jp
      refine jp.trans ?_
      show List.Perm _ (List.filter _ ((idx2 0 E.domR 0 E.domZ).flatMap _))
      rw [List.filter_flatMap]
      exact .refl _
    have cells : ∀ i J, i < E.domR → J < E.domZ → ∀ sp ∈ joined E procs S.D i J, ∀ o ∈ sp.parts,
        (0 ≤ asInt (heap o.tag).cellR ∧ asInt (heap o.tag).cellR < E.p.nr ∧ asInt (heap o.tag).cellR = ⌊(heap o.tag).posR / E.p.dr⌋) ∧
        0 ≤ asInt (heap o.tag).cellZ ∧ asInt (heap o.tag).cellZ < E.p.nz ∧ asInt (heap o.tag).cellZ = ⌊(heap o.tag).posZ / E.p.dz⌋ := by
      intro i J hi hJ sp hsp o ho
      obtain ⟨v, hv, e⟩ := Hj i J hi hJ sp hsp o ho
      obtain ⟨⟨p1, p2, _, p4⟩, q1, q2, _, q4⟩ := landed_cells h.chamber (A.place i J hi hJ sp hsp o ho) hv
      rw [e, p4, q4]
      exact ⟨⟨p1, p2, rfl⟩, q1, q2, rfl⟩
    have hd := h.chamber.div
    refine ⟨k1, ?_, ?_⟩
    · intro id hid
      have tl : tagsOf E (joined E procs S.D) id = (l id).map (·.tag) := by
        unfold tagsOf
        show _ = List.map _ (List.flatMap _ _)
        rw [List.map_flatMap]
        refine List.flatMap_congr fun q _ => ?_
        rw [parts_cells, List.map_map]
        rfl
      have own : ((allDoms (geoOf E.p E.domR E.domZ)).flatMap fun q => (l id).filter fun o =>
          (⟨low E.p.nr E.domR q.1, low E.p.nz E.domZ q.2, low E.p.nr E.domR (q.1 + 1), low E.p.nz E.domZ (q.2 + 1)⟩ : CellDims).Owns o).Perm (l id) := by
        refine split_perm _ (nodup_idx2 _ _ _ _) (fun q o => decide
          ((⟨low E.p.nr E.domR q.1, low E.p.nz E.domZ q.2, low E.p.nr E.domR (q.1 + 1), low E.p.nz E.domZ (q.2 + 1)⟩ : CellDims).Owns o)) (l id) ?_
        intro b hb
        obtain ⟨q, hq, hb⟩ := List.mem_flatMap.mp hb
        obtain ⟨hi, hj⟩ := mem_allDoms.mp hq
        rw [parts_cells] at hb
        obtain ⟨o, ho, rfl⟩ := List.mem_map.mp hb
        obtain ⟨sp, hsp, _, ho⟩ := mem_parts.mp ho
        obtain ⟨⟨c1, c2, _⟩, c3, c4, _⟩ := cells q.1 q.2 hi hj sp hsp o ho
        obtain ⟨i', hi', u1⟩ := owner h.chamber hd.r1 hd.r2 hd.r4 c1 c2
        obtain ⟨j', hj', u2⟩ := owner h.chamber hd.z1 hd.z2 hd.z4 c3 c4
        refine ⟨(i', j'), mem_allDoms.mpr ⟨hi', hj'⟩, fun q' _ => ?_⟩
        rw [decide_eq_true_eq]
        unfold CellDims.Owns
        dsimp only
        rw [u1, u2, Prod.ext_iff]
      rw [tl]
      refine List.Perm.trans ?_ (own.map _)
      unfold tagsOf
      rw [List.map_flatMap]
      refine List.Perm.flatMap_left _ fun q hq => List.Perm.map _ ?_
      obtain ⟨hi, hj⟩ := mem_allDoms.mp hq
      exact k2 q.1 q.2 id hi hj hid
    · intro i J hi hJ sp hsp o ho
      have hid : sp.id ∈ ids := by
        rw [← k1 _ i _ (col_split h hJ).1]
        exact List.mem_map_of_mem hsp
      have m := (k2 i J sp.id hi hJ hid).mem_iff.mp (mem_parts.mpr ⟨sp, hsp, rfl, ho⟩)
      obtain ⟨m, own⟩ := List.mem_filter.mp m
      obtain ⟨q, hq, m⟩ := List.mem_flatMap.mp m
      rw [decide_eq_true_eq] at own
      rw [parts_cells] at m
      obtain ⟨o', ho', rfl⟩ := List.mem_map.mp m
      obtain ⟨sp', hsp', hid', hm⟩ := mem_parts.mp ho'
      obtain ⟨hi', hj'⟩ := mem_allDoms.mp hq
      obtain ⟨⟨_, _, c1⟩, _, _, c2⟩ := cells q.1 q.2 hi' hj' sp' hsp' o' hm
      obtain ⟨v, hv, e⟩ := Hj q.1 q.2 hi' hj' sp' hsp' o' hm
      unfold CellDims.Owns at own
      dsimp only at own ⊢
      rw [c1, c2, e] at own
      rw [e]
      refine ⟨landed_place h.chamber (A.place q.1 q.2 hi' hj' sp' hsp' o' hm) hv ?_ ?_, ?_⟩
      · rw [low_hgt h.chamber hd.r1 hd.r2]; exact own.1
      · rw [low_hgt h.chamber hd.z1 hd.z2]; exact own.2
      · rw [← hid']
        exact A.number q.1 q.2 hi' hj' sp' hsp' o' hm
  · intro hcap
    have len : ((List.range procs).flatMap fun k => (allDoms (procGeo (geoOf E.p E.domR E.domZ) procs k)).flatMap fun p => ids.flatMap fun id =>
        SMB.parts (cellsOf heap (S.D k)) p.1 p.2 id).length = amount E procs ids S := by
      have jp := join_perm E.domR procs (E.cols procs) (cols_pos h) (fun k a b => ids.flatMap fun id => SMB.parts (cellsOf heap (S.D k)) a b id)
      rw [cols_mul h] at jp
      refine jp.length_eq.trans ?_
      rw [(flatMap_swap (idx2 0 E.domR 0 E.domZ) ids
        (fun q id => SMB.parts (cellsOf heap (S.D (q.2 / E.cols procs))) q.1 (q.2 % E.cols procs) id)).length_eq]
      unfold amount tagsOf
      rw [List.length_flatMap, List.length_flatMap]
      congr 1
      refine List.map_congr_left fun id _ => ?_
      rw [List.length_flatMap, List.length_flatMap]
      congr 1
      refine List.map_congr_left fun q _ => ?_
      rw [parts_cells, List.length_map, List.length_map]
      rfl
    have hc : ∀ k, k < procs → (Q k).plus.length + 1 ≤ cap ∧ (Q k).minus.length + 1 ≤ cap := by
      intro k hk
      have := queue_len (even_world h) nd (D := fun k => cellsOf heap (S.D k)) sp0 hk (hQ k hk)
      rw [len] at this
      omega
    obtain ⟨m, s, hrun, hfin⟩ := Mpi.C87_finishes_partial (n := procs) (cap := cap) (plus := fun k => (Q k).plus) (minus := fun k => (Q k).minus) hc
    obtain ⟨D', h1, _⟩ := hdel cap m s hrun hfin
    exact ⟨D', Q, hQ, m, s, hrun, hfin, h1⟩

/-! ### The step -/

/-- What one step does to a particle. -/
theorem moves_mpi_iff (hk : Pusher.Relativistic E.kind) {ids : List Nat} {S : StateMpi} (A : AliveMpi E procs ids S) {cap : Nat}
    (B : NoBorderMpi E procs cap S) {M1 : Nat → Solvers ℝ}
    (e1 : SolveMpi (mpiPar E.p procs E.domR (E.cols procs)) procs E.domR (E.cols procs) cap S.M M1) {k i j : Nat} (hp : k < procs)
    (hi : i < E.domR) (hj : j < E.cols procs) {sp : Sp} (hsp : sp ∈ S.D k i j) {o : Prt} (ho : o ∈ sp.parts) :
    ∃ v, v.length2 < E.c ^ 2 ∧ ∀ b, MovesMpi E procs k i j (M1 k i j) sp.id (S.heap o.tag) b ↔ b = landed E (S.heap o.tag) v := by
  have hJ := col_lt h hp hj
  have hsp' := hsp
  rw [← joined_at h S.D i hj] at hsp'
  have ha := A.place i _ hi hJ sp hsp' o ho
  obtain ⟨v, p1, p2⟩ := push_ok h.chamber hk hi hJ ha sp.id (M1 k i j)
  have cl := B M1 e1 k i j hp hi hj sp hsp o ho true v (by rw [geom_mpi h]; exact p1 true)
  refine ⟨v, p2, fun b => ?_⟩
  have adv := advance_iff h.chamber hi hJ ha p2 cl b
  rw [moves_mpi h hp hj]
  constructor
  · rintro ⟨junk, v', e', ad⟩
    obtain rfl := Res.ok.inj ((p1 junk).symm.trans e')
    exact adv.mp ad
  · intro e
    exact ⟨true, v, p1 true, adv.mpr e⟩

/-- The particles after the move. -/
theorem heap_mpi (hk : Pusher.Relativistic E.kind) {ids : List Nat} {S : StateMpi} (A : AliveMpi E procs ids S) {cap : Nat}
    (B : NoBorderMpi E procs cap S) {M1 : Nat → Solvers ℝ}
    (e1 : SolveMpi (mpiPar E.p procs E.domR (E.cols procs)) procs E.domR (E.cols procs) cap S.M M1) :
    ∃ heap : Nat → Part ℝ, (∀ k i j, k < procs → i < E.domR → j < E.cols procs → ∀ sp ∈ S.D k i j, ∀ o ∈ sp.parts,
        ∃ v, v.length2 < E.c ^ 2 ∧ heap o.tag = landed E (S.heap o.tag) v) ∧
      ∀ heap' : Nat → Part ℝ, ((∀ k i j, k < procs → i < E.domR → j < E.cols procs → ∀ sp ∈ S.D k i j, ∀ o ∈ sp.parts,
          MovesMpi E procs k i j (M1 k i j) sp.id (S.heap o.tag) (heap' o.tag)) ∧
        (∀ a, (∀ k i j, k < procs → i < E.domR → j < E.cols procs → ∀ sp ∈ S.D k i j, ∀ o ∈ sp.parts, o.tag ≠ a) → heap' a = S.heap a)) ↔
        heap' = heap := by
  have P : ∀ t, ∃ b, (∀ k i j, k < procs → i < E.domR → j < E.cols procs → ∀ sp ∈ S.D k i j, ∀ o ∈ sp.parts, o.tag = t →
      ∃ v, v.length2 < E.c ^ 2 ∧ b = landed E (S.heap o.tag) v ∧ ∀ b', MovesMpi E procs k i j (M1 k i j) sp.id (S.heap o.tag) b' ↔ b' = b) ∧
      ((∀ k i j, k < procs → i < E.domR → j < E.cols procs → ∀ sp ∈ S.D k i j, ∀ o ∈ sp.parts, o.tag ≠ t) → b = S.heap t) := by
    intro t
    by_cases c : ∃ k i j, k < procs ∧ i < E.domR ∧ j < E.cols procs ∧ ∃ sp ∈ S.D k i j, ∃ o ∈ sp.parts, o.tag = t
    · obtain ⟨k, i, j, hp, hi, hj, sp, hsp, o, ho, rfl⟩ := c
      obtain ⟨v, p2, p3⟩ := moves_mpi_iff h hk A B e1 hp hi hj hsp ho
      refine ⟨landed E (S.heap o.tag) v, ?_, fun n => absurd rfl (n k i j hp hi hj sp hsp o ho)⟩
      intro k' i' j' hp' hi' hj' sp' hsp' o' ho' et
      have q1 := hsp
      have q2 := hsp'
      rw [← joined_at h S.D i hj] at q1
      rw [← joined_at h S.D i' hj'] at q2
      obtain ⟨r1, r2, ei⟩ := once_at (fun i J _ hJ => A.species _ i _ (col_split h hJ).1) A.once hi' (col_lt h hp' hj') hi (col_lt h hp hj) q2 q1 ho' ho et
      have d1 := congrArg (· / E.cols procs) r2
      have d2 := congrArg (· % E.cols procs) r2
      rw [col_div h hj', col_div h hj] at d1
      rw [col_mod h hj', col_mod h hj] at d2
      subst r1 d1 d2
      exact ⟨v, p2, by rw [et], by rw [et, ei]; exact p3⟩
    · refine ⟨S.heap t, ?_, fun _ => rfl⟩
      intro k i j hp hi hj sp hsp o ho et
      exact absurd ⟨k, i, j, hp, hi, hj, sp, hsp, o, ho, et⟩ c
  choose heap hh hn using P
  refine ⟨heap, ?_, ?_⟩
  · intro k i j hp hi hj sp hsp o ho
    obtain ⟨v, a, b, _⟩ := hh o.tag k i j hp hi hj sp hsp o ho rfl
    exact ⟨v, a, b⟩
  · intro heap'
    constructor
    · rintro ⟨f2, f3⟩
      funext t
      by_cases c : ∃ k i j, k < procs ∧ i < E.domR ∧ j < E.cols procs ∧ ∃ sp ∈ S.D k i j, ∃ o ∈ sp.parts, o.tag = t
      · obtain ⟨k, i, j, hp, hi, hj, sp, hsp, o, ho, rfl⟩ := c
        obtain ⟨v, _, _, q⟩ := hh o.tag k i j hp hi hj sp hsp o ho rfl
        exact (q _).mp (f2 k i j hp hi hj sp hsp o ho)
      · have c' : ∀ k i j, k < procs → i < E.domR → j < E.cols procs → ∀ sp ∈ S.D k i j, ∀ o ∈ sp.parts, o.tag ≠ t :=
          fun k i j hp hi hj sp hsp o ho et => c ⟨k, i, j, hp, hi, hj, sp, hsp, o, ho, et⟩
        rw [f3 t c', hn t c']
    · rintro rfl
      refine ⟨?_, hn⟩
      intro k i j hp hi hj sp hsp o ho
      obtain ⟨v, _, _, q⟩ := hh o.tag k i j hp hi hj sp hsp o ho rfl
      exact (q _).mpr rfl

/-- What is deposited after the hand-over is well defined. -/
theorem housed_mpi {ids : List Nat} {S : StateMpi} (A : AliveMpi E procs ids S) {heap : Nat → Part ℝ}
    (H : ∀ k i j, k < procs → i < E.domR → j < E.cols procs → ∀ sp ∈ S.D k i j, ∀ o ∈ sp.parts,
      ∃ v, v.length2 < E.c ^ 2 ∧ heap o.tag = landed E (S.heap o.tag) v) {D' : Nat → Doms}
    (k1 : ∀ k i j, k < procs → (D' k i j).map Sp.id = ids)
    (k2 : ∀ id ∈ ids, (tagsOf E (joined E procs D') id).Perm (tagsOf E (joined E procs S.D) id))
    (k3 : ∀ i J, i < E.domR → J < E.domZ → ∀ sp ∈ joined E procs D' i J, ∀ o ∈ sp.parts, InPlace E i J (heap o.tag)) :
    HousedMpi E.p procs E.domR (E.cols procs) E.e (fun k => depositsOf E heap (D' k)) := by
  intro k a b hp ha hb q hq
  unfold depositsOf at hq
  obtain ⟨sp, hsp, hq⟩ := List.mem_flatMap.mp hq
  obtain ⟨o, ho, rfl⟩ := List.mem_map.mp hq
  have hid : sp.id ∈ ids := by rw [← k1 k a b hp]; exact List.mem_map_of_mem hsp
  have hB := col_lt h hp hb
  rw [← joined_at h D' a hb] at hsp
  have t := (k2 sp.id hid).mem_iff.mp (mem_tags.mpr ⟨a, _, ha, hB, sp, hsp, rfl, o, ho, rfl⟩)
  obtain ⟨i', j', hi', hj', sp', hsp', _, o', ho', et⟩ := mem_tags.mp t
  obtain ⟨c1, c2, c3⟩ := col_split h hj'
  obtain ⟨v, p1, p2⟩ := H _ i' _ c1 hi' c2 sp' hsp' o' ho'
  rw [et] at p2
  have place := k3 a _ ha hB sp hsp o ho
  have old := A.place i' j' hi' hj' sp' hsp' o' ho'
  rw [et] at old
  rw [p2] at place ⊢
  have := deposit_ok h.chamber old p1 place (E.charge sp.id)
  have g : (mpiCtx E.p procs E.domR (E.cols procs) E.e k a b).g = (domCtx E.p E.domR E.domZ E.e a (k * E.cols procs + b)).g := geom_mpi h k a b
  rw [g]
  exact this

theorem step_mpi (hk : Pusher.Relativistic E.kind) (hz : Sound E.dist) {ids : List Nat} (nd : ids.Nodup) {S : StateMpi}
    (A : AliveMpi E procs ids S) {cap : Nat} (B : NoBorderMpi E procs cap S) :
    (∀ T, StepMpi E procs cap S T → AliveMpi E procs ids T ∧
      ∀ id ∈ ids, (tagsOf E (joined E procs T.D) id).Perm (tagsOf E (joined E procs S.D) id)) ∧
    (E.domR ≤ cap → amount E procs ids S + 1 ≤ cap → ∃ T, StepMpi E procs cap S T) := by
  obtain ⟨u, W⟩ := A.fields
  obtain ⟨u1, F1, F2⟩ := maxwell_mpi h.slabs cap W
  refine ⟨?_, ?_⟩
  · rintro T ⟨M1, f1, f2, f3, f4, f5⟩
    obtain ⟨heap, hl, hu⟩ := heap_mpi h hk A B f1
    have eh := (hu T.heap).mp ⟨f2, f3⟩
    rw [← eh] at hl
    obtain ⟨k1, k2, k3⟩ := (handover_mpi h nd A hl cap).1 T.D f4
    have hou := housed_mpi h A hl k1 k2 fun i J hi hJ sp hsp o ho => (k3 i J hi hJ sp hsp o ho).1
    have keep := (current_mpi hz E.p cap h.slabs E.e h.chamber.good _ hou M1).1 T.M f5
    refine ⟨⟨k1, ?_, fun i J hi hJ sp hsp o ho => (k3 i J hi hJ sp hsp o ho).1, fun i J hi hJ sp hsp o ho => (k3 i J hi hJ sp hsp o ho).2, u1, ?_⟩, k2⟩
    · refine (List.Perm.nodup_iff ?_).mpr A.once
      exact List.Perm.flatMap_left _ fun id hid => k2 id hid
    · intro k i j x y c hc he
      have nj : ¬ isJ c := by
        unfold isJ
        rintro (rfl | rfl | rfl) <;> exact (nomatch hc)
      rw [keep k i j c x y he.1 he.2.1 he.2.2.1 nj]
      exact F1 M1 f1 k i j x y c hc he
  · intro c1 c2
    obtain ⟨M1, f1⟩ := F2 c1
    obtain ⟨heap, hl, hu⟩ := heap_mpi h hk A B f1
    obtain ⟨f2, f3⟩ := (hu heap).mpr rfl
    obtain ⟨D', f4⟩ := (handover_mpi h nd A hl cap).2 c2
    obtain ⟨k1, k2, k3⟩ := (handover_mpi h nd A hl cap).1 D' f4
    have hou := housed_mpi h A hl k1 k2 fun i J hi hJ sp hsp o ho => (k3 i J hi hJ sp hsp o ho).1
    obtain ⟨M', f5⟩ := (current_mpi hz E.p cap h.slabs E.e h.chamber.good _ hou M1).2 c1
    exact ⟨⟨M', heap, D'⟩, M1, f1, f2, f3, f4, f5⟩

end

/-! ### The schedule does not matter -/

section
variable {K : Type _}

theorem packAll_len [Zero K] (pack : Grid K → Nat → Nat → Res K) (P : Nat → Nat → Par K) (domR j : Nat) (cs : List Comp) (M : Solvers K)
    {l : List (Item K)} (hl : packAll pack P domR j cs M = .ok l) : l.length = domR := by
  have : ∀ (is : List Nat) (a b : List (Item K)), loop (fun i l => packItem pack (P i j) (M i j) cs i >>= fun it => .ok (l ++ [it])) is a = .ok b →
      b.length = a.length + is.length := by
    intro is
    induction is with
    | nil =>
      intro a b e
      obtain rfl := Res.ok.inj e
      rfl
    | cons i is ih =>
      intro a b e
      rw [loop_cons] at e
      cases c : packItem pack (P i j) (M i j) cs i with
      | ok it =>
        rw [c, Res.ok_bind, Res.ok_bind] at e
        rw [ih _ _ e, List.length_append, List.length_cons, List.length_cons, List.length_nil]
        omega
      | fatal => rw [c] at e; exact (nomatch e)
      | ub => rw [c] at e; exact (nomatch e)
  have := this _ _ _ hl
  rw [this, List.length_range, List.length_nil]
  omega

/-- The exchange of columns gives the same result for all schedules and all amounts of buffering. -/
theorem exchange_det [Zero K] [Add K] (P : Nat → Nat → Nat → Par K) (procs domR domZ : Nat) {cap cap' : Nat} (cs : List Comp)
    {M N M' N' : Nat → Solvers K} (e : ∀ k, k < procs → M k = N k) (h1 : Exchange P procs domR domZ cap cs M M')
    (h2 : Exchange P procs domR domZ cap' cs N N') (k : Nat) (hk : k < procs) : M' k = N' k := by
  obtain ⟨pl, mi, a1, s, r, f, a2⟩ := h1
  obtain ⟨pl', mi', b1, s', r', f', b2⟩ := h2
  have ep : ∀ k, k < procs → pl' k = pl k := fun k hk => by
    have := (b1 k hk).1
    rw [← e k hk, (a1 k hk).1] at this
    exact (Res.ok.inj this).symm
  have em : ∀ k, k < procs → mi' k = mi k := fun k hk => by
    have := (b1 k hk).2
    rw [← e k hk, (a1 k hk).2] at this
    exact (Res.ok.inj this).symm
  have U : Mpi.Uniform procs domR pl mi := fun k hk => ⟨packAll_len _ _ _ _ _ _ (a1 k hk).1, packAll_len _ _ _ _ _ _ (a1 k hk).2⟩
  have U' : Mpi.Uniform procs domR pl' mi' := fun k hk => ⟨packAll_len _ _ _ _ _ _ (b1 k hk).1, packAll_len _ _ _ _ _ _ (b1 k hk).2⟩
  have g1 : (if 0 < k then s.got k (k - 1) else []) = (if 0 < k then s'.got k (k - 1) else []) := by
    by_cases c : 0 < k
    · have d1 := (Mpi.C12_delivery U r f (k - 1) (by omega)).1
      have d2 := (Mpi.C12_delivery U' r' f' (k - 1) (by omega)).1
      rw [Nat.sub_add_cancel c] at d1 d2
      rw [if_pos c, if_pos c, d1, d2, ep _ (by omega)]
    · rw [if_neg c, if_neg c]
  have g2 : (if k + 1 < procs then s.got k (k + 1) else []) = (if k + 1 < procs then s'.got k (k + 1) else []) := by
    by_cases c : k + 1 < procs
    · have d1 := (Mpi.C12_delivery U r f k c).2
      have d2 := (Mpi.C12_delivery U' r' f' k c).2
      rw [if_pos c, if_pos c, d1, d2, em _ c]
    · rw [if_neg c, if_neg c]
  have a3 := a2 k hk
  rw [g1, g2, e k hk, b2 k hk] at a3
  exact (Res.ok.inj a3).symm

theorem solve_det [Field K] (P : Nat → Nat → Nat → Par K) (procs domR domZ : Nat) {cap cap' : Nat} {M N M' N' : Nat → Solvers K}
    (e : ∀ k, k < procs → M k = N k) (h1 : SolveMpi P procs domR domZ cap M M') (h2 : SolveMpi P procs domR domZ cap' N N')
    (k : Nat) (hk : k < procs) : M' k = N' k := by
  obtain ⟨M1, M2, M3, a1, a2, a3, a4⟩ := h1
  obtain ⟨N1, N2, N3, b1, b2, b3, b4⟩ := h2
  have e1 : ∀ k, k < procs → M1 k = N1 k := fun k hk => by
    have := a1 k hk
    rw [e k hk, b1 k hk] at this
    exact (Res.ok.inj this).symm
  have e2 := exchange_det P procs domR domZ _ e1 a2 b2
  have e3 : ∀ k, k < procs → M3 k = N3 k := fun k hk => by
    have := a3 k hk
    rw [e2 k hk, b3 k hk] at this
    exact (Res.ok.inj this).symm
  exact exchange_det P procs domR domZ _ e3 a4 b4 k hk

theorem current_det [Field K] [LinearOrder K] [IsStrictOrderedRing K] [FloorRing K]
    (dist : VB.Ctx K → List (VB.Part K) → Mem K → Res (Mem K)) (p : Par K) (procs domR domZ : Nat) {cap cap' : Nat} (c : Consts K)
    {ps qs : Nat → Nat → Nat → List (VB.Part K)} {M N M' N' : Nat → Solvers K}
    (e : ∀ k, k < procs → M k = N k) (ep : ∀ k, k < procs → ps k = qs k) (h1 : CurrentMpi dist p procs domR domZ cap c ps M M')
    (h2 : CurrentMpi dist p procs domR domZ cap' c qs N N') (k : Nat) (hk : k < procs) : M' k = N' k := by
  obtain ⟨M1, a1, a2⟩ := h1
  obtain ⟨N1, b1, b2⟩ := h2
  have e1 : ∀ k, k < procs → M1 k = N1 k := fun k hk => by
    have := a1 k hk
    rw [e k hk, ep k hk, b1 k hk] at this
    exact (Res.ok.inj this).symm
  exact exchange_det _ procs domR domZ _ e1 a2 b2 k hk

end

/-- The hand-over gives the same result for all schedules and all amounts of buffering. -/
theorem handover_det (base : Geo) (procs : Nat) {cap cap' : Nat} (sid : Prt → Nat) {D F D' F' : Nat → Doms}
    (e : ∀ k, k < procs → D k = F k) (h1 : HandOver base procs cap sid D D') (h2 : HandOver base procs cap' sid F F')
    (k : Nat) (hk : k < procs) : D' k = F' k := by
  obtain ⟨Q, a1, m, s, r, f, a2⟩ := h1
  obtain ⟨R, b1, m', s', r', f', b2⟩ := h2
  have eq : ∀ k, k < procs → R k = Q k := fun k hk => by
    have := b1 k hk
    rw [← e k hk, a1 k hk] at this
    exact (Res.ok.inj this).symm
  have g1 : (if 0 < k then s.got k (k - 1) else []) = (if 0 < k then s'.got k (k - 1) else []) := by
    by_cases c : 0 < k
    · have d1 := (Mpi.C87_delivery r f (k - 1) (by omega)).1
      have d2 := (Mpi.C87_delivery r' f' (k - 1) (by omega)).1
      rw [Nat.sub_add_cancel c] at d1 d2
      rw [if_pos c, if_pos c, d1, d2, eq _ (by omega)]
    · rw [if_neg c, if_neg c]
  have g2 : (if k + 1 < procs then s.got k (k + 1) else []) = (if k + 1 < procs then s'.got k (k + 1) else []) := by
    by_cases c : k + 1 < procs
    · have d1 := (Mpi.C87_delivery r f k c).2
      have d2 := (Mpi.C87_delivery r' f' k c).2
      rw [if_pos c, if_pos c, d1, d2, eq _ c]
    · rw [if_neg c, if_neg c]
  have a3 := a2 k hk
  rw [g1, g2, ← eq k hk, b2 k hk] at a3
  exact (Res.ok.inj a3).symm

/-- Two states show the same on all processes. -/
def SameMpi (procs : Nat) (S T : StateMpi) : Prop := S.heap = T.heap ∧ ∀ k, k < procs → S.D k = T.D k ∧ S.M k = T.M k

theorem step_det {E : Env} {procs : Nat} (h : Shared E procs) (hk : Pusher.Relativistic E.kind) {ids : List Nat} {S S' : StateMpi}
    (A : AliveMpi E procs ids S) {cap cap' : Nat} (B : NoBorderMpi E procs cap S) (e : SameMpi procs S S') {T T' : StateMpi}
    (s1 : StepMpi E procs cap S T) (s2 : StepMpi E procs cap' S' T') : SameMpi procs T T' := by
  obtain ⟨eh, ek⟩ := e
  obtain ⟨M1, f1, f2, f3, f4, f5⟩ := s1
  obtain ⟨N1, g1, g2, g3, g4, g5⟩ := s2
  have eM := solve_det _ procs E.domR (E.cols procs) (fun k hk => (ek k hk).2) f1 g1
  obtain ⟨heap, _, hu⟩ := heap_mpi h hk A B f1
  have e1 := (hu T.heap).mp ⟨f2, f3⟩
  have e2 := (hu T'.heap).mp ⟨fun k i j hp hi hj sp hsp o ho => by
      rw [(ek k hp).1] at hsp
      rw [eM k hp, eh]
      exact g2 k i j hp hi hj sp hsp o ho, fun a ha => by
      rw [eh]
      refine g3 a fun k i j hp hi hj sp hsp o ho => ?_
      rw [← (ek k hp).1] at hsp
      exact ha k i j hp hi hj sp hsp o ho⟩
  have eT : T.heap = T'.heap := e1.trans e2.symm
  rw [eT] at f4 f5
  have eD := handover_det _ procs _ (fun k hk => by rw [(ek k hk).1]) f4 g4
  refine ⟨eT, fun k hk => ⟨eD k hk, ?_⟩⟩
  exact current_det E.dist E.p procs E.domR (E.cols procs) E.e eM (fun k hk => by rw [eD k hk]) f5 g5 k hk

end Pic
end Pico
