import Verif.Lemmas.CurrentStep
import Verif.Props.FieldStep
import Verif.Props.Azimuthal

/-!
# C96 — the currents of a divided area

`solveCurrent dist p domR domZ e ps M` is the current step of an area that is divided into domains, `ps a b` being the
particles of domain `(a, b)`.  `dist (ctxOf p 0 e) qs (resetCurrent _ m)` is the current step of the undivided area with the
particles `qs`.
-/

set_option linter.unusedSimpArgs false
set_option linter.unusedVariables false
set_option linter.unusedSectionVars false

namespace Pico
namespace Yee

open SMB VB

variable {K : Type _} [Field K] [LinearOrder K] [IsStrictOrderedRing K] [FloorRing K]

section
variable {p : Par K} {domR domZ : Nat} (hd : Divided p domR domZ) (e : Consts K)
include hd

theorem dom_good (hx : (ctxOf p 0 e).Good) {i j : Nat} (hi : i < domR) (hj : j < domZ) : (domCtx p domR domZ e i j).Good := by
  rw [domCtx_eq p hd]
  obtain ⟨⟨_, b1, _⟩, _, b2, _⟩ := hd.bounds hi hj
  have g1 : p.r0 + p.nr < 2 ^ 31 := hx.geo.nr
  have g2 : 0 + p.nz < 2 ^ 31 := hx.geo.nz
  refine ⟨⟨hx.geo.dr, hx.geo.dz, ?_, ?_⟩, hx.dt, hx.pi, hx.mnzl⟩
  · show low p.nr domR i + p.r0 + hgt p.nr domR i < 2 ^ 31
    omega
  · show low p.nz domZ j + 0 + hgt p.nz domZ j < 2 ^ 31
    omega

theorem dom_bound (hx : (ctxOf p 0 e).Good) {i j : Nat} (hi : i < domR) (hj : j < domZ) {q : Part K}
    (hb : q.Bound (domCtx p domR domZ e i j).g) : q.Bound (ctxOf p 0 e).g := by
  rw [domCtx_eq p hd] at hb
  obtain ⟨⟨_, b1, _⟩, _, b2, _⟩ := hd.bounds hi hj
  have dr := hx.geo.dr
  have dz := hx.geo.dz
  obtain ⟨⟨c1, c2, c3, c4⟩, h2, h3, h4, h5⟩ := hb
  refine ⟨⟨le_trans ?_ c1, lt_of_lt_of_le c2 ?_, le_trans ?_ c3, lt_of_lt_of_le c4 ?_⟩, h2, h3, h4, h5⟩
  · refine mul_le_mul_of_nonneg_right ?_ dr.le
    exact Nat.cast_le.mpr (show p.r0 ≤ low p.nr domR i + p.r0 by omega)
  · refine mul_le_mul_of_nonneg_right ?_ dr.le
    exact Nat.cast_le.mpr (show low p.nr domR i + p.r0 + hgt p.nr domR i ≤ p.r0 + p.nr by omega)
  · refine mul_le_mul_of_nonneg_right ?_ dz.le
    exact Nat.cast_le.mpr (show 0 ≤ low p.nz domZ j + 0 by omega)
  · refine mul_le_mul_of_nonneg_right ?_ dz.le
    exact Nat.cast_le.mpr (show low p.nz domZ j + 0 + hgt p.nz domZ j ≤ 0 + p.nz by omega)

theorem dom_near {i j : Nat} {q : Part K} (hn : q.NearCell (domCtx p domR domZ e i j).g) : q.NearCell (ctxOf p 0 e).g := by
  rw [domCtx_eq p hd] at hn
  exact hn

end

/-- What a particle deposits with the ZigZag scheme. -/
def zz (X : Ctx K) (q : Part K) (c : Comp) (x y : Int) : K :=
  tot (ZigZag.cellOps X q ⌊q.r / X.g.dr⌋ ⌊q.rOld / X.g.dr⌋ ⌊q.z / X.g.dz⌋ ⌊q.zOld / X.g.dz⌋ ⌊(q.r + q.rOld) / 2 / X.g.dr⌋) c x y

theorem tot_none (l : List (Op K)) (c : Comp) (x y : Int) (h : ∀ o ∈ l, o.val c x y = 0) : tot l c x y = 0 := by
  unfold tot
  refine List.sum_eq_zero fun v hv => ?_
  obtain ⟨o, ho, rfl⟩ := List.mem_map.mp hv
  exact h o ho

theorem inc_outside {g : Geom K} {o : Op K} (h : o.Inc g) (c : Comp) {x y : Int} (hin : ¬ insideG g x y) : o.val c x y = 0 := by
  cases o with
  | set => exact h.elim
  | inc c' u v w =>
    refine if_neg ?_
    rintro ⟨_, rfl, rfl⟩
    exact hin h

/-- The ZigZag deposition of a list of particles after the grids were cleared. -/
theorem zz_run (X : Ctx K) (hX : X.Good) (qs : List (Part K)) (hq : ∀ q ∈ qs, q.Bound X.g ∧ q.NearCell X.g) (m : Mem K) :
    ∃ r, ZigZag.currentDistribution X qs (resetCurrent X.g m) = .ok r ∧
      (∀ c, isJ c → ∀ x y, insideG X.g x y → r c x y = (qs.map fun q => zz X q c x y).sum) ∧
      ∀ c, ¬ isJ c → ∀ x y, r c x y = m c x y := by
  obtain ⟨r, e1, v⟩ := ZigZag.loop_sum (ZigZag.particle X) (fun q => zz X q) qs (fun q h m => by
    obtain ⟨e, hi⟩ := ZigZag.near_cells X hX q (hq q h).1 (hq q h).2
    obtain ⟨m', e1, v⟩ := runOps_inc X.g _ hi m
    exact ⟨m', by unfold ZigZag.particle; rw [e, Res.ok_bind]; exact e1, v⟩) (overlayClear X.g (resetCurrent X.g m))
  refine ⟨r, e1, ?_, ?_⟩
  · intro c hc x y hin
    rw [v]
    have : overlayClear X.g (resetCurrent X.g m) c x y = 0 := by
      unfold overlayClear resetCurrent
      split
      · rfl
      · exact if_pos ⟨hc, hin⟩
    rw [this, zero_add]
  · intro c hc x y
    rw [v]
    have z : ∀ q ∈ qs, zz X q c x y = 0 := by
      intro q _
      refine tot_none _ c x y fun o ho => ?_
      unfold ZigZag.cellOps at ho
      dsimp only at ho
      simp only [List.mem_cons, List.not_mem_nil, or_false] at ho
      have n1 : c ≠ .jr := fun h => hc (Or.inl h)
      have n2 : c ≠ .jp := fun h => hc (Or.inr (Or.inl h))
      have n3 : c ≠ .jz := fun h => hc (Or.inr (Or.inr h))
      rcases ho with rfl | rfl | rfl | rfl | rfl | rfl | rfl | rfl | rfl | rfl | rfl | rfl <;>
        exact if_neg (fun h => by first | exact n1 h.1 | exact n2 h.1 | exact n3 h.1)
    have : (qs.map fun q => zz X q c x y).sum = 0 := by
      refine List.sum_eq_zero fun v hv => ?_
      obtain ⟨q, hq, rfl⟩ := List.mem_map.mp hv
      exact z q hq
    rw [this, add_zero]
    unfold overlayClear resetCurrent
    rw [if_neg (fun h => hc h.1), if_neg (fun h => hc h.1)]

theorem zz_part (p : Par K) {domR domZ : Nat} (hd : Divided p domR domZ) (e : Consts K) (i j : Nat) (q : Part K) (c : Comp)
    (x y : Int) : zz (domCtx p domR domZ e i j) q c x y = zz (ctxOf p 0 e) q c (low p.nr domR i + x) (low p.nz domZ j + y) := by
  rw [domCtx_eq p hd]
  unfold zz
  rw [cellOps_part, shift_tot, add_comm x, add_comm y]
  rfl

theorem inside_dom (p : Par K) {domR domZ : Nat} (hd : Divided p domR domZ) (e : Consts K) (i j : Nat) (x y : Int) :
    insideG (domCtx p domR domZ e i j).g x y ↔ (winPar p domR domZ i j).inside x y := by
  rw [domCtx_eq p hd]
  unfold insideG Par.inside
  rw [winPar_nr, winPar_nz]
  rfl

theorem cell_inside {p : Par K} {domR domZ : Nat} (hd : Divided p domR domZ) (e : Consts K) {i j : Nat} {x y : Int}
    (h : CellOf p domR domZ i j x y) : insideG (ctxOf p 0 e).g (low p.nr domR i + x) (low p.nz domZ j + y) := by
  obtain ⟨hi, hj, h1, h2⟩ := h
  obtain ⟨⟨_, b1, _⟩, _, b2, _⟩ := hd.bounds hi hj
  show (-2 ≤ _ ∧ _ < (p.nr : Int) + 2) ∧ (-2 ≤ _ ∧ _ < (p.nz : Int) + 2)
  omega

/-- C96, ZigZag scheme, exactly: what a cell of domain `(i, j)` holds after the current step of the divided area is what it
holds after the step of the undivided area with all particles but those of the two domains at its lower right and upper left
corner.  Full statement (false, see `C96_corner_fails`): with all particles. -/
theorem C96_zigzag_exact_partial (p : Par K) {domR domZ : Nat} (hd : Divided p domR domZ) (e : Consts K) (hx : (ctxOf p 0 e).Good)
    (ps : Nat → Nat → List (Part K)) (hp : Housed p domR domZ e ps) (M : Solvers K) (m : Mem K) :
    ∃ M', solveCurrent ZigZag.currentDistribution p domR domZ e ps M = .ok M' ∧
      (∀ i j c x y, i < domR → j < domZ → c ≠ .jr → c ≠ .jp → c ≠ .jz → M' i j c x y = M i j c x y) ∧
      ∀ i j, i < domR → j < domZ → ∀ qs, qs.Perm (partsOf domR domZ (fun a b => !Antidiagonal i j a b) ps) →
        ∃ m', ZigZag.currentDistribution (ctxOf p 0 e) qs (resetCurrent (ctxOf p 0 e).g m) = .ok m' ∧
          ∀ c x y, c = .jr ∨ c = .jp ∨ c = .jz → CellOf p domR domZ i j x y →
            M' i j c x y = m' c (low p.nr domR i + x) (low p.nz domZ j + y) := by
  obtain ⟨M', e1, k1, w1⟩ := solve_gather ZigZag.currentDistribution p hd e ps M
    (fun c a b X Y => ((ps a b).map fun q => zz (ctxOf p 0 e) q c X Y).sum)
    (fun i j m hi hj => by
      obtain ⟨r, e1, v, k⟩ := zz_run (domCtx p domR domZ e i j) (dom_good hd e hx hi hj) (ps i j) (hp i j hi hj) m
      refine ⟨r, e1, ?_, k⟩
      intro c hc x y hin
      rw [v c hc x y ((inside_dom p hd e i j x y).mpr hin)]
      simp only [zz_part p hd])
    (fun c hc i j x y hi hj hin => by
      refine List.sum_eq_zero fun v hv => ?_
      obtain ⟨q, hq, rfl⟩ := List.mem_map.mp hv
      rw [← zz_part p hd]
      have b := hp i j hi hj q hq
      obtain ⟨_, inc⟩ := ZigZag.near_cells _ (dom_good hd e hx hi hj) q b.1 b.2
      exact tot_none _ _ _ _ fun o ho => inc_outside (inc o ho) c (fun k => hin ((inside_dom p hd e i j x y).mp k)))
  refine ⟨M', e1, ?_, ?_⟩
  · intro i j c x y hi hj n1 n2 n3
    exact k1 i j c x y hi hj (by unfold isJ; tauto)
  · intro i j hi hj qs hqs
    obtain ⟨m', e2, v, _⟩ := zz_run (ctxOf p 0 e) hx qs (fun q hq => by
      obtain ⟨a, b, ha, hb, _, h⟩ := mem_partsOf.mp (hqs.mem_iff.mp hq)
      have := hp a b ha hb q h
      exact ⟨dom_bound hd e hx ha hb this.1, dom_near hd e this.2⟩) m
    refine ⟨m', e2, ?_⟩
    intro c x y hc hcell
    rw [w1 c hc i j x y hcell, v c hc _ _ (cell_inside hd e hcell), (hqs.map _).sum_eq, sum_partsOf]

/-- The cells of a deposition lie around the old and the new cell of the particle. -/
theorem zz_support (X : Ctx K) (q : Part K) (c : Comp) (x y : Int)
    (h : ¬ ((min ⌊q.r / X.g.dr⌋ ⌊q.rOld / X.g.dr⌋ - X.g.r0 ≤ x ∧ x ≤ max ⌊q.r / X.g.dr⌋ ⌊q.rOld / X.g.dr⌋ - X.g.r0 + 1) ∧
      (min ⌊q.z / X.g.dz⌋ ⌊q.zOld / X.g.dz⌋ - X.g.z0 ≤ y ∧ y ≤ max ⌊q.z / X.g.dz⌋ ⌊q.zOld / X.g.dz⌋ - X.g.z0 + 1))) :
    zz X q c x y = 0 := by
  refine tot_none _ c x y fun o ho => ?_
  unfold ZigZag.cellOps at ho
  dsimp only at ho
  simp only [List.mem_cons, List.not_mem_nil, or_false] at ho
  rcases ho with rfl | rfl | rfl | rfl | rfl | rfl | rfl | rfl | rfl | rfl | rfl | rfl <;>
    exact if_neg (fun k => h (by omega))

/-- A particle whose path does not cut a corner leaves nothing in the domains at the corners. -/
theorem corner_clear {p : Par K} {domR domZ : Nat} (hd : Divided p domR domZ) (e : Consts K) (hx : (ctxOf p 0 e).Good) {i j a b : Nat}
    (ha : a < domR) (hb : b < domZ) {x y : Int} (hc : CellOf p domR domZ i j x y) (han : Antidiagonal i j a b = true) {q : Part K}
    (hq : q.Bound (domCtx p domR domZ e a b).g) (hk : ¬ CutsCorner p domR domZ a b q) :
    ¬ ((min ⌊q.r / p.dr⌋ ⌊q.rOld / p.dr⌋ - p.r0 ≤ (low p.nr domR i : Int) + x ∧
        (low p.nr domR i : Int) + x ≤ max ⌊q.r / p.dr⌋ ⌊q.rOld / p.dr⌋ - p.r0 + 1) ∧
      (min ⌊q.z / p.dz⌋ ⌊q.zOld / p.dz⌋ - (0 : Nat) ≤ (low p.nz domZ j : Int) + y ∧
        (low p.nz domZ j : Int) + y ≤ max ⌊q.z / p.dz⌋ ⌊q.zOld / p.dz⌋ - (0 : Nat) + 1)) := by
  obtain ⟨_, _, c1, c2⟩ := bound_cells (dom_good hd e hx ha hb).geo hq
  rw [domCtx_eq p hd] at c1 c2
  have c1 : ((low p.nr domR a + p.r0 : Nat) : Int) ≤ ⌊q.r / p.dr⌋ ∧ ⌊q.r / p.dr⌋ < ((low p.nr domR a + p.r0 : Nat) : Int) + hgt p.nr domR a := c1
  have c2 : ((low p.nz domZ b + 0 : Nat) : Int) ≤ ⌊q.z / p.dz⌋ ∧ ⌊q.z / p.dz⌋ < ((low p.nz domZ b + 0 : Nat) : Int) + hgt p.nz domZ b := c2
  obtain ⟨hi, hj, h1, h2⟩ := hc
  have s1 : low p.nr domR (i+1) = low p.nr domR i + hgt p.nr domR i := by
    have := low_step hd.r1 hd.r2 i; unfold hgt; omega
  have s2 : low p.nz domZ (j+1) = low p.nz domZ j + hgt p.nz domZ j := by
    have := low_step hd.z1 hd.z2 j; unfold hgt; omega
  unfold Antidiagonal at han
  unfold CutsCorner at hk
  intro h
  apply hk
  rcases of_decide_eq_true han with ⟨rfl, rfl⟩ | ⟨rfl, rfl⟩
  · left; omega
  · right; omega

/-- C96, ZigZag scheme: if no path cuts a corner, the current step of the divided area gives in every cell what the step of
the undivided area gives with the particles of all domains in any order. -/
theorem C96_zigzag_partial (p : Par K) {domR domZ : Nat} (hd : Divided p domR domZ) (e : Consts K) (hx : (ctxOf p 0 e).Good)
    (ps : Nat → Nat → List (Part K)) (hp : Housed p domR domZ e ps)
    (hk : ∀ a b, a < domR → b < domZ → ∀ q ∈ ps a b, ¬ CutsCorner p domR domZ a b q)
    (qs : List (Part K)) (hqs : qs.Perm (partsOf domR domZ (fun _ _ => true) ps)) (M : Solvers K) (m : Mem K) :
    ∃ M' m', solveCurrent ZigZag.currentDistribution p domR domZ e ps M = .ok M' ∧
      ZigZag.currentDistribution (ctxOf p 0 e) qs (resetCurrent (ctxOf p 0 e).g m) = .ok m' ∧
      ∀ i j c x y, c = .jr ∨ c = .jp ∨ c = .jz → CellOf p domR domZ i j x y →
        M' i j c x y = m' c (low p.nr domR i + x) (low p.nz domZ j + y) := by
  obtain ⟨M', e1, _, w⟩ := C96_zigzag_exact_partial p hd e hx ps hp M m
  obtain ⟨m', e2, v, _⟩ := zz_run (ctxOf p 0 e) hx qs (fun q hq => by
    obtain ⟨a, b, ha, hb, _, h⟩ := mem_partsOf.mp (hqs.mem_iff.mp hq)
    have := hp a b ha hb q h
    exact ⟨dom_bound hd e hx ha hb this.1, dom_near hd e this.2⟩) m
  refine ⟨M', m', e1, e2, ?_⟩
  intro i j c x y hc hcell
  obtain ⟨m1, e3, w1⟩ := w i j hcell.1 hcell.2.1 _ (List.Perm.refl _)
  obtain ⟨m2, e4, v2, _⟩ := zz_run (ctxOf p 0 e) hx (partsOf domR domZ (fun a b => !Antidiagonal i j a b) ps) (fun q hq => by
    obtain ⟨a, b, ha, hb, _, h⟩ := mem_partsOf.mp hq
    have := hp a b ha hb q h
    exact ⟨dom_bound hd e hx ha hb this.1, dom_near hd e this.2⟩) m
  obtain rfl := Res.ok.inj (e3.symm.trans e4)
  rw [w1 c x y hc hcell, v2 c hc _ _ (cell_inside hd e hcell), v c hc _ _ (cell_inside hd e hcell), (hqs.map _).sum_eq, sum_partsOf,
    sum_partsOf]
  refine Finset.sum_congr rfl fun a ha => Finset.sum_congr rfl fun b hb => ?_
  rw [if_pos rfl]
  cases han : Antidiagonal i j a b with
  | false => rfl
  | true =>
    refine Eq.symm (List.sum_eq_zero fun v hv => ?_)
    obtain ⟨q, hq, rfl⟩ := List.mem_map.mp hv
    have ha := Finset.mem_range.mp ha
    have hb := Finset.mem_range.mp hb
    exact zz_support _ q c _ _ (corner_clear hd e hx ha hb hcell han (hp a b ha hb q hq).1 (hk a b ha hb q hq))

/-! ## The Villasenor–Buneman scheme -/

/-- What a list of particles leaves after the grids were cleared, for particles that do not move along the axis only. -/
theorem vb_run (X : Ctx K) (hX : X.Good) (qs : List (Part K))
    (hq : ∀ q ∈ qs, q.Bound X.g ∧ q.NearCell X.g ∧ (X.mnzl ≤ |q.r - q.rOld| ∨ |q.z - q.zOld| < X.mnzl)) (m : Mem K) :
    ∃ r, VB.currentDistribution X qs (resetCurrent X.g m) = .ok r ∧
      (∀ c, c = .jr ∨ c = .jz → ∀ x y, insideG X.g x y → r c x y = (qs.map fun q => depositBy X q c x y).sum) ∧
      (∀ x y, insideG X.g x y → r .jp x y = if (0 ≤ x ∧ x < X.g.nr) ∧ (0 ≤ y ∧ y < X.g.nz) then
        (qs.map fun q => tot (azimuthalOps X q) .jp x y).sum else 0) ∧
      ∀ c, ¬ isJ c → ∀ x y, r c x y = m c x y := by
  obtain ⟨m1, e1, v1⟩ := loop_azimuthal X hX qs (fun p hp => (hq p hp).1) (overlayClear X.g (resetCurrent X.g m))
  obtain ⟨m2, e2, v2⟩ := loop_deposits X qs (fun p hp => rzOps_inc X hX p (hq p hp).1 (hq p hp).2.1 (hq p hp).2.2) (overlayClear X.g m1)
  refine ⟨m2, ?_, ?_, ?_, ?_⟩
  · unfold VB.currentDistribution azimuthal
    rw [e1, Res.ok_bind]
    exact e2
  · intro c hc i k hin
    have hc' : c = .jr ∨ c = .jp ∨ c = .jz := by rcases hc with h | h <;> simp [h]
    have hp' : c ≠ .jp := by rcases hc with h | h <;> simp [h]
    rw [v2]
    have z : m1 c i k = 0 := by
      rw [v1]
      have : (qs.map (fun p => tot (azimuthalOps X p) c i k)).sum = 0 := by
        rw [List.map_congr_left (fun p _ => azimuthalOps_tot X p c hp' i k)]
        simp
      rw [this, add_zero]
      unfold overlayClear resetCurrent
      split
      · rfl
      · rw [if_pos ⟨hc', hin⟩]
    unfold overlayClear
    split
    · rw [zero_add]
    · rw [z, zero_add]
  · intro x y hin
    rw [rz_other X .jp (by decide) (by decide) qs _ _ e2 x y]
    unfold overlayClear
    by_cases h : (0 ≤ x ∧ x < X.g.nr) ∧ (0 ≤ y ∧ y < X.g.nz)
    · rw [if_pos h, if_neg (fun k => k.2.2 h), v1]
      unfold overlayClear resetCurrent
      rw [if_neg (fun k => k.2.2 h), if_pos ⟨Or.inr (Or.inl rfl), hin⟩, zero_add]
    · rw [if_neg h, if_pos ⟨Or.inr (Or.inl rfl), hin, h⟩]
  · intro c hc i k
    have n1 : c ≠ .jr := fun h => hc (Or.inl h)
    have n2 : c ≠ .jp := fun h => hc (Or.inr (Or.inl h))
    have n3 : c ≠ .jz := fun h => hc (Or.inr (Or.inr h))
    rw [rz_other X c n1 n3 qs _ _ e2 i k]
    unfold overlayClear
    rw [if_neg (fun h => hc h.1), v1, List.map_congr_left (fun p _ => azimuthalOps_tot X p c n2 i k)]
    unfold overlayClear resetCurrent
    rw [if_neg (fun h => hc h.1), if_neg (fun h => hc h.1)]
    simp

theorem deposit_part {p : Par K} {domR domZ : Nat} (hd : Divided p domR domZ) (e : Consts K) (i j : Nat) {q : Part K} {ops : List (Op K)}
    (h : rzOps (ctxOf p 0 e) q = .ok ops) (c : Comp) (x y : Int) :
    depositBy (domCtx p domR domZ e i j) q c x y = depositBy (ctxOf p 0 e) q c (low p.nr domR i + x) (low p.nz domZ j + y) := by
  rw [domCtx_eq p hd]
  unfold depositBy
  rw [rzOps_part _ _ _ _ _ q h, h]
  dsimp only
  rw [shift_tot, add_comm x, add_comm y]

theorem az_part {p : Par K} {domR domZ : Nat} (hd : Divided p domR domZ) (e : Consts K) (i j : Nat) (q : Part K) (c : Comp) (x y : Int) :
    tot (azimuthalOps (domCtx p domR domZ e i j) q) c x y =
      tot (azimuthalOps (ctxOf p 0 e) q) c (low p.nr domR i + x) (low p.nz domZ j + y) := by
  rw [domCtx_eq p hd, azimuthalOps_part, shift_tot, add_comm x, add_comm y]

/-- No particle moves along the axis only (those erase radial currents, C19). -/
def Slanted (mnzl : K) (domR domZ : Nat) (ps : Nat → Nat → List (Part K)) : Prop :=
  ∀ a b, a < domR → b < domZ → ∀ q ∈ ps a b, mnzl ≤ |q.r - q.rOld| ∨ |q.z - q.zOld| < mnzl

/-- C96, Villasenor–Buneman scheme, exactly: the radial and axial currents in a cell of domain `(i, j)` are those of the
undivided area with all particles but those of the two domains at its corners; the azimuthal current is that of the particles of
the domain alone.  Full statement (false, see `C96_corner_fails`, `C96_azimuthal_fails`): those of all particles. -/
theorem C96_vb_exact_partial (p : Par K) {domR domZ : Nat} (hd : Divided p domR domZ) (e : Consts K) (hx : (ctxOf p 0 e).Good)
    (ps : Nat → Nat → List (Part K)) (hp : Housed p domR domZ e ps) (hs : Slanted e.mnzl domR domZ ps) (M : Solvers K) (m : Mem K) :
    ∃ M', solveCurrent VB.currentDistribution p domR domZ e ps M = .ok M' ∧
      (∀ i j c x y, i < domR → j < domZ → c ≠ .jr → c ≠ .jp → c ≠ .jz → M' i j c x y = M i j c x y) ∧
      (∀ i j, i < domR → j < domZ → ∀ qs, qs.Perm (partsOf domR domZ (fun a b => !Antidiagonal i j a b) ps) →
        ∃ m', VB.currentDistribution (ctxOf p 0 e) qs (resetCurrent (ctxOf p 0 e).g m) = .ok m' ∧
          ∀ c x y, c = .jr ∨ c = .jz → CellOf p domR domZ i j x y →
            M' i j c x y = m' c (low p.nr domR i + x) (low p.nz domZ j + y)) ∧
      ∀ i j, i < domR → j < domZ →
        ∃ m', VB.currentDistribution (ctxOf p 0 e) (ps i j) (resetCurrent (ctxOf p 0 e).g m) = .ok m' ∧
          ∀ x y, CellOf p domR domZ i j x y →
            M' i j .jp x y = m' .jp (low p.nr domR i + x) (low p.nz domZ j + y) := by
  have all : ∀ a b, a < domR → b < domZ → ∀ q ∈ ps a b, q.Bound (domCtx p domR domZ e a b).g ∧ q.NearCell (domCtx p domR domZ e a b).g ∧
      ((domCtx p domR domZ e a b).mnzl ≤ |q.r - q.rOld| ∨ |q.z - q.zOld| < (domCtx p domR domZ e a b).mnzl) :=
    fun a b ha hb q hq => ⟨(hp a b ha hb q hq).1, (hp a b ha hb q hq).2, hs a b ha hb q hq⟩
  have whole : ∀ a b, a < domR → b < domZ → ∀ q ∈ ps a b, q.Bound (ctxOf p 0 e).g ∧ q.NearCell (ctxOf p 0 e).g ∧
      ((ctxOf p 0 e).mnzl ≤ |q.r - q.rOld| ∨ |q.z - q.zOld| < (ctxOf p 0 e).mnzl) :=
    fun a b ha hb q hq => ⟨dom_bound hd e hx ha hb (hp a b ha hb q hq).1, dom_near hd e (hp a b ha hb q hq).2, hs a b ha hb q hq⟩
  have dp : ∀ a b, a < domR → b < domZ → ∀ q ∈ ps a b, ∀ c x y, depositBy (domCtx p domR domZ e a b) q c x y =
      depositBy (ctxOf p 0 e) q c (low p.nr domR a + x) (low p.nz domZ b + y) := by
    intro a b ha hb q hq c x y
    obtain ⟨ops, h, _⟩ := rzOps_inc _ hx q (whole a b ha hb q hq).1 (whole a b ha hb q hq).2.1 (whole a b ha hb q hq).2.2
    exact deposit_part hd e a b h c x y
  obtain ⟨M', e1, k1, w1⟩ := solve_gather VB.currentDistribution p hd e ps M
    (fun c a b X Y => if c = .jp then
        (if (0 ≤ X - low p.nr domR a ∧ X - low p.nr domR a < hgt p.nr domR a) ∧ (0 ≤ Y - low p.nz domZ b ∧ Y - low p.nz domZ b < hgt p.nz domZ b) then
          ((ps a b).map fun q => tot (azimuthalOps (ctxOf p 0 e) q) .jp X Y).sum else 0)
      else ((ps a b).map fun q => depositBy (ctxOf p 0 e) q c X Y).sum)
    (fun i j m hi hj => by
      obtain ⟨r, e1, v, vp, k⟩ := vb_run (domCtx p domR domZ e i j) (dom_good hd e hx hi hj) (ps i j) (all i j hi hj) m
      refine ⟨r, e1, ?_, k⟩
      intro c hc x y hin
      have hin' := (inside_dom p hd e i j x y).mpr hin
      by_cases h : c = .jp
      · subst h
        rw [if_pos rfl, vp x y hin']
        have n1 : (domCtx p domR domZ e i j).g.nr = hgt p.nr domR i := by rw [domCtx_eq p hd]; rfl
        have n2 : (domCtx p domR domZ e i j).g.nz = hgt p.nz domZ j := by rw [domCtx_eq p hd]; rfl
        have a1 : (low p.nr domR i : Int) + x - low p.nr domR i = x := by omega
        have a2 : (low p.nz domZ j : Int) + y - low p.nz domZ j = y := by omega
        rw [n1, n2, a1, a2]
        simp only [az_part hd e]
      · rw [if_neg h, v c (by rcases hc with h1 | h1 | h1; exacts [Or.inl h1, absurd h1 h, Or.inr h1]) x y hin']
        congr 1
        exact List.map_congr_left fun q hq => dp i j hi hj q hq c x y)
    (fun c hc i j x y hi hj hin => by
      have hin' : ¬ insideG (domCtx p domR domZ e i j).g x y := fun k => hin ((inside_dom p hd e i j x y).mp k)
      by_cases h : c = .jp
      · rw [if_pos h]
        refine if_neg (fun k => hin ?_)
        unfold Par.inside
        rw [winPar_nr, winPar_nz]
        omega
      · rw [if_neg h]
        refine List.sum_eq_zero fun v hv => ?_
        obtain ⟨q, hq, rfl⟩ := List.mem_map.mp hv
        rw [← dp i j hi hj q hq]
        have b := all i j hi hj q hq
        obtain ⟨ops, h, inc⟩ := rzOps_inc _ (dom_good hd e hx hi hj) q b.1 b.2.1 b.2.2
        rw [depositBy_fine h]
        exact tot_none _ _ _ _ fun o ho => inc_outside (inc o ho) c hin')
  refine ⟨M', e1, ?_, ?_, ?_⟩
  · intro i j c x y hi hj n1 n2 n3
    exact k1 i j c x y hi hj (by unfold isJ; tauto)
  · intro i j hi hj qs hqs
    obtain ⟨m', e2, v, _⟩ := vb_run (ctxOf p 0 e) hx qs (fun q hq => by
      obtain ⟨a, b, ha, hb, _, h⟩ := mem_partsOf.mp (hqs.mem_iff.mp hq)
      exact whole a b ha hb q h) m
    refine ⟨m', e2, ?_⟩
    intro c x y hc hcell
    have hc' : isJ c := by rcases hc with h | h <;> simp [isJ, h]
    have hp' : c ≠ .jp := by rcases hc with h | h <;> simp [h]
    rw [w1 c hc' i j x y hcell, v c hc _ _ (cell_inside hd e hcell), (hqs.map _).sum_eq, sum_partsOf]
    simp only [if_neg hp']
  · intro i j hi hj
    obtain ⟨m', e2, _, v, _⟩ := vb_run (ctxOf p 0 e) hx (ps i j) (whole i j hi hj) m
    refine ⟨m', e2, ?_⟩
    intro x y hcell
    obtain ⟨⟨_, b1, _⟩, _, b2, _⟩ := hd.bounds hi hj
    obtain ⟨_, _, c1, c2⟩ := hcell
    rw [w1 .jp (Or.inr (Or.inl rfl)) i j x y ⟨hi, hj, c1, c2⟩, v _ _ (cell_inside hd e ⟨hi, hj, c1, c2⟩),
      if_pos (show (0 ≤ (low p.nr domR i : Int) + x ∧ (low p.nr domR i : Int) + x < (ctxOf p 0 e).g.nr) ∧
        (0 ≤ (low p.nz domZ j : Int) + y ∧ (low p.nz domZ j : Int) + y < (ctxOf p 0 e).g.nz) from
          ⟨⟨by omega, by show _ < (p.nr : Int); omega⟩, by omega, by show _ < (p.nz : Int); omega⟩)]
    simp only [↓reduceIte]
    have step : ∀ d n a b, 1 ≤ d → 2 * d ≤ n → a < b → low n d a + hgt n d a ≤ low n d b := by
      intro d n a b h1 h2 h3
      have := low_step h1 h2 a
      have := low_mono (n := n) (d := d) (show a + 1 ≤ b from h3)
      unfold hgt
      omega
    rw [Finset.sum_eq_single i, Finset.sum_eq_single j]
    · rw [if_pos (by unfold Antidiagonal; simp), if_pos (by omega)]
    · intro b hb hne
      have := step domZ p.nz b j hd.z1 hd.z2
      have := step domZ p.nz j b hd.z1 hd.z2
      split
      · exact if_neg (by omega)
      · rfl
    · intro h; exact absurd (Finset.mem_range.mpr hj) h
    · intro a ha hne
      refine Finset.sum_eq_zero fun b hb => ?_
      have := step domR p.nr a i hd.r1 hd.r2
      have := step domR p.nr i a hd.r1 hd.r2
      split
      · exact if_neg (by omega)
      · rfl
    · intro h; exact absurd (Finset.mem_range.mpr hi) h

/-- The cell `(x, y)` is one of the four around the cells between `(i, k)` and `(j, l)`. -/
def Around (X : Ctx K) (i j k l x y : Int) : Prop :=
  (min i j - X.g.r0 ≤ x ∧ x ≤ max i j - X.g.r0 + 1) ∧ (min k l - X.g.z0 ≤ y ∧ y ≤ max k l - X.g.z0 + 1)

/-- All operations are increments around the cells. -/
def AllAround (X : Ctx K) (i j k l : Int) (ops : List (Op K)) : Prop :=
  ∀ o ∈ ops, ∀ c x y, ¬ Around X i j k l x y → o.val c x y = 0

theorem around_append {X : Ctx K} {i j k l : Int} {a b : List (Op K)} (h : AllAround X i j k l a) (h' : AllAround X i j k l b) :
    AllAround X i j k l (a ++ b) := fun o ho => (List.mem_append.mp ho).elim (h o) (h' o)

theorem simple_around (X : Ctx K) (rN zN rO zO q : K) {i j k l u v : Int} (h1 : min i j ≤ u) (h2 : u ≤ max i j) (h3 : min k l ≤ v)
    (h4 : v ≤ max k l) : AllAround X i j k l (simple X rN zN rO zO u v q) := by
  intro o ho c x y hn
  unfold simple at ho
  split at ho
  · simp at ho
  · unfold Around at hn
    simp only [List.mem_cons, List.not_mem_nil, or_false] at ho
    rcases ho with rfl | rfl | rfl | rfl <;> exact if_neg (fun h => hn (by omega))

/-- The radial and axial deposits lie around the old and the new cell, unless the path starts exactly on the border above. -/
theorem vb_support (X : Ctx K) (hX : X.Good) (q : Part K) (hb : q.Bound X.g) (hn : q.NearCell X.g)
    (ha : X.mnzl ≤ |q.r - q.rOld| ∨ |q.z - q.zOld| < X.mnzl) (hs : q.rOld ≠ ((⌊q.r / X.g.dr⌋ : K) + 1) * X.g.dr) (c : Comp) (x y : Int)
    (h : ¬ Around X ⌊q.r / X.g.dr⌋ ⌊q.rOld / X.g.dr⌋ ⌊q.z / X.g.dz⌋ ⌊q.zOld / X.g.dz⌋ x y) : depositBy X q c x y = 0 := by
  have fr := floor_cell hX.geo.dr q.rOld
  have fz := floor_cell hX.geo.dz q.zOld
  have dr := hX.geo.dr
  have dz := hX.geo.dz
  have lt : ∀ {a b : Int} {s : K}, 0 < s → (a : K) * s < ((b : K) + 1) * s → a ≤ b := by
    intro a b s hs h
    have : (a : K) < ((b + 1 : Int) : K) := by push_cast; exact lt_of_mul_lt_mul_right h hs.le
    have := Int.cast_lt.mp this
    omega
  have key : ∃ ops, rzOps X q = .ok ops ∧ AllAround X ⌊q.r / X.g.dr⌋ ⌊q.rOld / X.g.dr⌋ ⌊q.z / X.g.dz⌋ ⌊q.zOld / X.g.dz⌋ ops := by
    have N : AllAround X ⌊q.r / X.g.dr⌋ ⌊q.rOld / X.g.dr⌋ ⌊q.z / X.g.dz⌋ ⌊q.zOld / X.g.dz⌋ [] := fun o ho => by simp at ho
    rw [rzOps_eq X hX q hb hn]
    obtain ⟨⟨n1, n2⟩, n3, n4⟩ := hn
    generalize hi : ⌊q.r / X.g.dr⌋ = i at *
    generalize hj : ⌊q.rOld / X.g.dr⌋ = j at *
    generalize hk : ⌊q.z / X.g.dz⌋ = k at *
    generalize hl : ⌊q.zOld / X.g.dz⌋ = l at *
    split
    · rw [strictMotion_eq X hX q hb ⟨⟨by omega, by omega⟩, by omega, by omega⟩, hi, hj, hk, hl]
      refine ⟨_, rfl, ?_⟩
      split_ifs with a b d
      · exact N
      · rcases ha with ha | ha
        · exact absurd b (not_lt.mpr ha)
        · exact absurd ⟨b, ha⟩ a
      · intro o ho c x y hno
        unfold strictRadial at ho
        dsimp only at ho
        unfold Around at hno
        split_ifs at ho <;> simp only [List.mem_cons, List.not_mem_nil, or_false] at ho
        · rcases ho with rfl | rfl <;> exact if_neg (fun h => hno (by omega))
        · rcases ho with rfl | rfl | rfl | rfl <;> exact if_neg (fun h => hno (by omega))
        · rcases ho with rfl | rfl | rfl | rfl <;> exact if_neg (fun h => hno (by omega))
      · exact N
    · refine ⟨_, rfl, ?_⟩
      unfold switchOps
      dsimp only
      split_ifs with h0 h1 h2 h3 h4 h5 h6 h7 h8 h9
      · exact simple_around _ _ _ _ _ _ (by omega) (by omega) (by omega) (by omega)
      · unfold crossR
        dsimp only
        split
        · rename_i hgt
          have : i + 1 ≤ j := lt dr (by push_cast; exact lt_of_lt_of_le hgt fr.2.le)
          exact around_append (simple_around _ _ _ _ _ _ (by omega) (by omega) (by omega) (by omega))
            (simple_around _ _ _ _ _ _ (by omega) (by omega) (by omega) (by omega))
        · rename_i hgt
          have lt2 : q.rOld < ((i : K) + 1) * X.g.dr := lt_of_le_of_ne (not_lt.mp hgt) hs
          have : j ≤ i := lt dr (lt_of_le_of_lt fr.1 lt2)
          exact around_append (simple_around _ _ _ _ _ _ (by omega) (by omega) (by omega) (by omega))
            (simple_around _ _ _ _ _ _ (by omega) (by omega) (by omega) (by omega))
      · unfold crossZ
        dsimp only
        split
        · rename_i hlt
          have : l + 1 ≤ k := by
            have : (l : K) * X.g.dz < (k : K) * X.g.dz := lt_of_le_of_lt fz.1 hlt
            have : (l : K) < (k : K) := lt_of_mul_lt_mul_right this dz.le
            have := Int.cast_lt.mp this
            omega
          exact around_append (simple_around _ _ _ _ _ _ (by omega) (by omega) (by omega) (by omega))
            (simple_around _ _ _ _ _ _ (by omega) (by omega) (by omega) (by omega))
        · rename_i hlt
          have : k ≤ l := lt dz (lt_of_le_of_lt (not_lt.mp hlt) fz.2)
          exact around_append (simple_around _ _ _ _ _ _ (by omega) (by omega) (by omega) (by omega))
            (simple_around _ _ _ _ _ _ (by omega) (by omega) (by omega) (by omega))
      · exact N
      · unfold crossUpRight
        dsimp only
        split_ifs
        · exact around_append (around_append (simple_around _ _ _ _ _ _ (by omega) (by omega) (by omega) (by omega))
            (simple_around _ _ _ _ _ _ (by omega) (by omega) (by omega) (by omega)))
            (simple_around _ _ _ _ _ _ (by omega) (by omega) (by omega) (by omega))
        · exact around_append (around_append (simple_around _ _ _ _ _ _ (by omega) (by omega) (by omega) (by omega))
            (simple_around _ _ _ _ _ _ (by omega) (by omega) (by omega) (by omega)))
            (simple_around _ _ _ _ _ _ (by omega) (by omega) (by omega) (by omega))
        · exact N
      · unfold crossUpLeft
        dsimp only
        split_ifs
        · exact around_append (around_append (simple_around _ _ _ _ _ _ (by omega) (by omega) (by omega) (by omega))
            (simple_around _ _ _ _ _ _ (by omega) (by omega) (by omega) (by omega)))
            (simple_around _ _ _ _ _ _ (by omega) (by omega) (by omega) (by omega))
        · exact around_append (around_append (simple_around _ _ _ _ _ _ (by omega) (by omega) (by omega) (by omega))
            (simple_around _ _ _ _ _ _ (by omega) (by omega) (by omega) (by omega)))
            (simple_around _ _ _ _ _ _ (by omega) (by omega) (by omega) (by omega))
        · exact N
      · unfold crossDownRight
        dsimp only
        split_ifs
        · exact around_append (around_append (simple_around _ _ _ _ _ _ (by omega) (by omega) (by omega) (by omega))
            (simple_around _ _ _ _ _ _ (by omega) (by omega) (by omega) (by omega)))
            (simple_around _ _ _ _ _ _ (by omega) (by omega) (by omega) (by omega))
        · exact around_append (around_append (simple_around _ _ _ _ _ _ (by omega) (by omega) (by omega) (by omega))
            (simple_around _ _ _ _ _ _ (by omega) (by omega) (by omega) (by omega)))
            (simple_around _ _ _ _ _ _ (by omega) (by omega) (by omega) (by omega))
        · exact N
      · unfold crossDownLeft
        dsimp only
        split_ifs
        · exact around_append (around_append (simple_around _ _ _ _ _ _ (by omega) (by omega) (by omega) (by omega))
            (simple_around _ _ _ _ _ _ (by omega) (by omega) (by omega) (by omega)))
            (simple_around _ _ _ _ _ _ (by omega) (by omega) (by omega) (by omega))
        · exact around_append (around_append (simple_around _ _ _ _ _ _ (by omega) (by omega) (by omega) (by omega))
            (simple_around _ _ _ _ _ _ (by omega) (by omega) (by omega) (by omega)))
            (simple_around _ _ _ _ _ _ (by omega) (by omega) (by omega) (by omega))
        · exact N
      · exact N
      · exact N
      · exact N
  obtain ⟨ops, e, al⟩ := key
  rw [depositBy_fine e]
  exact tot_none _ _ _ _ fun o ho => al o ho c x y h

/-- C96, Villasenor–Buneman scheme: radial and axial currents.  If no path cuts a corner, or starts exactly on the border
above the row in which it ends, the step of the divided area gives in every cell what the step of the undivided area gives. -/
theorem C96_vb_partial (p : Par K) {domR domZ : Nat} (hd : Divided p domR domZ) (e : Consts K) (hx : (ctxOf p 0 e).Good)
    (ps : Nat → Nat → List (Part K)) (hp : Housed p domR domZ e ps) (hs : Slanted e.mnzl domR domZ ps)
    (hk : ∀ a b, a < domR → b < domZ → ∀ q ∈ ps a b, ¬ CutsCorner p domR domZ a b q)
    (hr : ∀ a b, a < domR → b < domZ → ∀ q ∈ ps a b, q.rOld ≠ ((⌊q.r / p.dr⌋ : K) + 1) * p.dr)
    (qs : List (Part K)) (hqs : qs.Perm (partsOf domR domZ (fun _ _ => true) ps)) (M : Solvers K) (m : Mem K) :
    ∃ M' m', solveCurrent VB.currentDistribution p domR domZ e ps M = .ok M' ∧
      VB.currentDistribution (ctxOf p 0 e) qs (resetCurrent (ctxOf p 0 e).g m) = .ok m' ∧
      ∀ i j c x y, c = .jr ∨ c = .jz → CellOf p domR domZ i j x y →
        M' i j c x y = m' c (low p.nr domR i + x) (low p.nz domZ j + y) := by
  obtain ⟨M', e1, _, w, _⟩ := C96_vb_exact_partial p hd e hx ps hp hs M m
  have whole : ∀ a b, a < domR → b < domZ → ∀ q ∈ ps a b, q.Bound (ctxOf p 0 e).g ∧ q.NearCell (ctxOf p 0 e).g ∧
      ((ctxOf p 0 e).mnzl ≤ |q.r - q.rOld| ∨ |q.z - q.zOld| < (ctxOf p 0 e).mnzl) :=
    fun a b ha hb q hq => ⟨dom_bound hd e hx ha hb (hp a b ha hb q hq).1, dom_near hd e (hp a b ha hb q hq).2, hs a b ha hb q hq⟩
  obtain ⟨m', e2, v, _⟩ := vb_run (ctxOf p 0 e) hx qs (fun q hq => by
    obtain ⟨a, b, ha, hb, _, h⟩ := mem_partsOf.mp (hqs.mem_iff.mp hq)
    exact whole a b ha hb q h) m
  refine ⟨M', m', e1, e2, ?_⟩
  intro i j c x y hc hcell
  obtain ⟨m1, e3, w1⟩ := w i j hcell.1 hcell.2.1 _ (List.Perm.refl _)
  obtain ⟨m2, e4, v2, _⟩ := vb_run (ctxOf p 0 e) hx (partsOf domR domZ (fun a b => !Antidiagonal i j a b) ps) (fun q hq => by
    obtain ⟨a, b, ha, hb, _, h⟩ := mem_partsOf.mp hq
    exact whole a b ha hb q h) m
  obtain rfl := Res.ok.inj (e3.symm.trans e4)
  rw [w1 c x y hc hcell, v2 c hc _ _ (cell_inside hd e hcell), v c hc _ _ (cell_inside hd e hcell), (hqs.map _).sum_eq, sum_partsOf,
    sum_partsOf]
  refine Finset.sum_congr rfl fun a ha => Finset.sum_congr rfl fun b hb => ?_
  rw [if_pos rfl]
  cases han : Antidiagonal i j a b with
  | false => rfl
  | true =>
    refine Eq.symm (List.sum_eq_zero fun v hv => ?_)
    obtain ⟨q, hq, rfl⟩ := List.mem_map.mp hv
    have ha := Finset.mem_range.mp ha
    have hb := Finset.mem_range.mp hb
    obtain ⟨h1, h2, h3⟩ := whole a b ha hb q hq
    exact vb_support _ hx q h1 h2 h3 (hr a b ha hb q hq) c _ _
      (corner_clear hd e hx ha hb hcell han (hp a b ha hb q hq).1 (hk a b ha hb q hq))

/-! ## What is lost -/

/-- One particle in domain `(a, b)`, none elsewhere. -/
def lonePart (a b : Nat) (q : Part K) (i j : Nat) : List (Part K) := if i = a ∧ j = b then [q] else []

theorem lone_housed {p : Par K} {domR domZ : Nat} {e : Consts K} {a b : Nat} {q : Part K} (h : q.Bound (domCtx p domR domZ e a b).g)
    (h' : q.NearCell (domCtx p domR domZ e a b).g) : Housed p domR domZ e (lonePart a b q) := by
  intro i j _ _ s hs
  unfold lonePart at hs
  split at hs
  · rename_i k
    obtain ⟨rfl, rfl⟩ := k
    obtain rfl := List.mem_singleton.mp hs
    exact ⟨h, h'⟩
  · simp at hs

/-- Without particles nothing is deposited. -/
theorem zz_none (X : Ctx K) (m : Mem K) {r : Mem K}
    (h : ZigZag.currentDistribution X [] (resetCurrent X.g m) = .ok r) (c : Comp) (hc : isJ c) (x y : Int) (hin : insideG X.g x y) :
    r c x y = 0 := by
  obtain rfl := Res.ok.inj h
  unfold overlayClear resetCurrent
  split
  · rfl
  · exact if_pos ⟨hc, hin⟩

/-- C96 fails at corners: a particle that comes from the row below the domain `(a, b)` and moves in the last column of it
leaves a radial current in the first column of the next domain row below, domain `(a-1, b+1)`.  In the undivided area this
current is there, in the divided area the cell stays empty. -/
theorem C96_corner_fails (p : Par K) {domR domZ : Nat} (hd : Divided p domR domZ) (e : Consts K) (hx : (ctxOf p 0 e).Good)
    (a b : Nat) (ha : a + 1 < domR) (hb : b + 1 < domZ) (q : Part K) (hq : q.Bound (domCtx p domR domZ e (a+1) b).g)
    (hi : ⌊q.rOld / p.dr⌋ + 1 = (p.r0 : Int) + low p.nr domR (a+1)) (hi' : ⌊q.r / p.dr⌋ = ⌊q.rOld / p.dr⌋ + 1)
    (hk : ⌊q.z / p.dz⌋ + 1 = low p.nz domZ (b+1)) (hk' : ⌊q.zOld / p.dz⌋ = ⌊q.z / p.dz⌋)
    (hz : (⌊q.z / p.dz⌋ : K) * p.dz < q.zOld) (h0 : q.q ≠ 0) (M : Solvers K) (m : Mem K) :
    ∃ M' m', solveCurrent ZigZag.currentDistribution p domR domZ e (lonePart (a+1) b q) M = .ok M' ∧
      ZigZag.currentDistribution (ctxOf p 0 e) [q] (resetCurrent (ctxOf p 0 e).g m) = .ok m' ∧
      CellOf p domR domZ a (b+1) (hgt p.nr domR a - 1) 0 ∧
      M' a (b+1) .jr (hgt p.nr domR a - 1) 0 = 0 ∧
      m' .jr (low p.nr domR a + (hgt p.nr domR a - 1)) (low p.nz domZ (b+1) + 0) ≠ 0 := by
  have hn : q.NearCell (domCtx p domR domZ e (a+1) b).g := by
    rw [domCtx_eq p hd]
    show (⌊q.rOld / p.dr⌋ - 1 ≤ ⌊q.r / p.dr⌋ ∧ ⌊q.r / p.dr⌋ ≤ ⌊q.rOld / p.dr⌋ + 1) ∧
      (⌊q.zOld / p.dz⌋ - 1 ≤ ⌊q.z / p.dz⌋ ∧ ⌊q.z / p.dz⌋ ≤ ⌊q.zOld / p.dz⌋ + 1)
    omega
  have dr : 0 < p.dr := hx.geo.dr
  have dz : 0 < p.dz := hx.geo.dz
  obtain ⟨⟨hh, b1, _⟩, _⟩ := hd.bounds (show a < domR by omega) hb
  have s1 : low p.nr domR (a+1) = low p.nr domR a + hgt p.nr domR a := by
    have := low_step hd.r1 hd.r2 a; unfold hgt; omega
  have hc : CellOf p domR domZ a (b+1) (hgt p.nr domR a - 1) 0 := by
    have := (hd.bounds (show a < domR by omega) hb).2.1
    unfold CellOf
    omega
  obtain ⟨M', e1, _, w⟩ := C96_zigzag_exact_partial p hd e hx (lonePart (a+1) b q) (lone_housed hq hn) M m
  have hw := dom_bound hd e hx ha (show b < domZ by omega) hq
  obtain ⟨m', e2, v, _⟩ := zz_run (ctxOf p 0 e) hx [q] (fun s hs => by
    obtain rfl := List.mem_singleton.mp hs
    exact ⟨hw, dom_near hd e hn⟩) m
  refine ⟨M', m', e1, e2, hc, ?_, ?_⟩
  · have emp : partsOf domR domZ (fun i j => !Antidiagonal a (b+1) i j) (lonePart (a+1) b q) = [] := by
      refine List.eq_nil_iff_forall_not_mem.mpr fun s hs => ?_
      obtain ⟨i, j, _, _, h1, h2⟩ := mem_partsOf.mp hs
      unfold lonePart at h2
      split at h2
      · rename_i k
        obtain ⟨rfl, rfl⟩ := k
        simp [Antidiagonal] at h1
      · simp at h2
    obtain ⟨m1, e3, w1⟩ := w a (b+1) (by omega) hb [] (by rw [emp])
    rw [w1 .jr _ _ (Or.inl rfl) hc]
    exact zz_none _ m e3 .jr (Or.inl rfl) _ _ (cell_inside hd e hc)
  · rw [v .jr (Or.inl rfl) _ _ (cell_inside hd e hc)]
    rw [List.map_singleton, List.sum_singleton]
    unfold zz
    have c1 : (low p.nr domR a : Int) + (hgt p.nr domR a - 1) = ⌊q.rOld / p.dr⌋ - p.r0 := by omega
    have c2 : (low p.nz domZ (b+1) : Int) + 0 = ⌊q.z / p.dz⌋ + 1 := by omega
    rw [c1, c2]
    show tot (ZigZag.cellOps (ctxOf p 0 e) q ⌊q.r / p.dr⌋ ⌊q.rOld / p.dr⌋ ⌊q.z / p.dz⌋ ⌊q.zOld / p.dz⌋ ⌊(q.r + q.rOld) / 2 / p.dr⌋) .jr _ _ ≠ 0
    have fr := floor_cell dr q.rOld
    have fz := floor_cell dz q.z
    have fo := floor_cell dz q.zOld
    have iM : 0 ≤ ⌊(q.r + q.rOld) / 2 / p.dr⌋ :=
      Int.floor_nonneg.mpr (div_nonneg (by linarith [hw.rpos, hw.rOldPos]) dr.le)
    have iM : (0 : K) ≤ (⌊(q.r + q.rOld) / 2 / p.dr⌋ : K) := by exact_mod_cast iM
    generalize ⌊(q.r + q.rOld) / 2 / p.dr⌋ = im at iM ⊢
    rw [hk'] at fo ⊢
    rw [hi']
    generalize ⌊q.rOld / p.dr⌋ = i at *
    generalize ⌊q.z / p.dz⌋ = k at *
    have rel : ZigZag.relayPoint i (i + 1) q.rOld q.r p.dr = ((i : K) + 1) * p.dr := ZigZag.relay_up dr (by omega)
    have relz : ZigZag.relayPoint k k q.zOld q.z p.dz = (q.zOld + q.z) / 2 := ZigZag.relay_same fo fz
    have val : tot (ZigZag.cellOps (ctxOf p 0 e) q (i + 1) i k k im) .jr (i - p.r0) (k + 1) =
        1 / cellVolume e.pi (im : K) p.dr p.dz * (q.q / p.dt * (((i : K) + 1) * p.dr - q.rOld)) *
          ((q.zOld + (q.zOld + q.z) / 2) / 2 - (k : K) * p.dz) := by
      unfold ZigZag.cellOps
      simp only [tot_cons, tot_nil, Op.val, ctxOf, rel, relz, reduceCtorEq, false_and, if_false, add_zero, zero_add, true_and]
      rw [if_neg (show ¬ (k + 1 = k - ((0 : Nat) : Int)) by omega), if_pos (show k + 1 = k - ((0 : Nat) : Int) + 1 by omega),
        if_neg (show ¬ (i - (p.r0 : Int) = i + 1 - p.r0 ∧ k + 1 = k - ((0 : Nat) : Int)) by omega),
        if_neg (show ¬ (i - (p.r0 : Int) = i + 1 - p.r0 ∧ k + 1 = k - ((0 : Nat) : Int) + 1) by omega)]
      ring
    rw [val]
    have vol : 0 < cellVolume e.pi (im : K) p.dr p.dz := by
      have pi : 0 < e.pi := hx.pi
      unfold cellVolume
      positivity
    have dt : 0 < p.dt := hx.dt
    refine mul_ne_zero (mul_ne_zero (div_ne_zero one_ne_zero vol.ne') (mul_ne_zero (div_ne_zero h0 dt.ne') ?_)) ?_
    · linarith [fr.2]
    · have := fz.1
      exact (show (0 : K) < _ by linarith).ne'

/-- C96 fails for the azimuthal current of the Villasenor–Buneman scheme at every border of domains: the part of the current
of a particle in the last column of domain `(a, b)` that belongs to the first column of the next domain is lost. -/
theorem C96_azimuthal_fails (p : Par K) {domR domZ : Nat} (hd : Divided p domR domZ) (e : Consts K) (hx : (ctxOf p 0 e).Good)
    (a b : Nat) (ha : a < domR) (hb : b + 1 < domZ) (q : Part K) (hq : q.Bound (domCtx p domR domZ e a b).g)
    (hs : q.SameCell (domCtx p domR domZ e a b).g) (hl : e.mnzl ≤ |q.r - q.rOld| ∨ |q.z - q.zOld| < e.mnzl)
    (hk : ⌊q.z / p.dz⌋ + 1 = low p.nz domZ (b+1)) (hz : (⌊q.z / p.dz⌋ : K) * p.dz < q.zOld)
    (h0 : q.q ≠ 0) (hv : q.vphi ≠ 0) (M : Solvers K) (m : Mem K) :
    ∃ M' m', solveCurrent VB.currentDistribution p domR domZ e (lonePart a b q) M = .ok M' ∧
      VB.currentDistribution (ctxOf p 0 e) [q] (resetCurrent (ctxOf p 0 e).g m) = .ok m' ∧
      let x := ⌊q.r / p.dr⌋ - p.r0 - low p.nr domR a
      CellOf p domR domZ a (b+1) x 0 ∧ M' a (b+1) .jp x 0 = 0 ∧
        m' .jp (low p.nr domR a + x) (low p.nz domZ (b+1) + 0) ≠ 0 := by
  have hn : q.NearCell (domCtx p domR domZ e a b).g := by
    have h1 := hs.1
    have h2 := hs.2
    unfold Part.NearCell
    omega
  have hw := dom_bound hd e hx ha (show b < domZ by omega) hq
  have sl : Slanted e.mnzl domR domZ (lonePart a b q) := by
    intro i j _ _ s hs'
    unfold lonePart at hs'
    split at hs'
    · obtain rfl := List.mem_singleton.mp hs'
      exact hl
    · simp at hs'
  obtain ⟨M', e1, _, _, w⟩ := C96_vb_exact_partial p hd e hx (lonePart a b q) (lone_housed hq hn) sl M m
  obtain ⟨m', e2, _, v, _⟩ := vb_run (ctxOf p 0 e) hx [q] (fun s hs' => by
    obtain rfl := List.mem_singleton.mp hs'
    exact ⟨hw, dom_near hd e hn, hl⟩) m
  have dr : 0 < p.dr := hx.geo.dr
  have dz : 0 < p.dz := hx.geo.dz
  obtain ⟨⟨g1, g2, g3⟩, g4, g5, g6⟩ := hd.bounds ha hb
  have hc : CellOf p domR domZ a (b+1) (⌊q.r / p.dr⌋ - p.r0 - low p.nr domR a) 0 := by
    have c1 := hq.new.rlo
    have c2 := hq.new.rhi
    rw [domCtx_eq p hd] at c1 c2
    have d1 : (low p.nr domR a + p.r0 : Nat) ≤ ⌊q.r / p.dr⌋ := by
      refine Int.le_floor.mpr ((le_div_iff₀ dr).mpr ?_)
      exact_mod_cast c1
    have d2 : ⌊q.r / p.dr⌋ < (low p.nr domR a + p.r0 + hgt p.nr domR a : Nat) := by
      refine Int.floor_lt.mpr ((div_lt_iff₀ dr).mpr ?_)
      exact_mod_cast c2
    unfold CellOf
    push_cast at d1 d2
    omega
  refine ⟨M', m', e1, e2, hc, ?_, ?_⟩
  · obtain ⟨m1, e3, w1⟩ := w a (b+1) ha hb
    rw [w1 _ _ hc]
    have emp : lonePart a b q a (b+1) = [] := by
      unfold lonePart
      exact if_neg (fun k => by omega)
    rw [emp] at e3
    obtain ⟨m2, e4, _, v2, _⟩ := vb_run (ctxOf p 0 e) hx [] (fun s hs' => by simp at hs') m
    obtain rfl := Res.ok.inj (e3.symm.trans e4)
    rw [v2 _ _ (cell_inside hd e hc)]
    simp
  · rw [v _ _ (cell_inside hd e hc), if_pos]
    · rw [List.map_singleton, List.sum_singleton, azimuthalOps_value _ hx q hw]
      have mid : 0 < q.midR := by have := hw.rpos; have := hw.rOldPos; unfold Part.midR; linarith
      have s1 : ⌊q.rOld / p.dr⌋ = ⌊q.r / p.dr⌋ := by have := hs.1; rwa [domCtx_eq p hd] at this
      have f1 := floor_cell dr q.r
      have f2 := floor_cell dr q.rOld
      have f3 := floor_cell dz q.z
      rw [s1] at f2
      have pos : (0 : K) ≤ (⌊q.r / p.dr⌋ : K) := by
        exact_mod_cast Int.floor_nonneg.mpr (div_nonneg hw.rpos.le dr.le)
      show q.q * q.vphi * ((if _ = ⌊q.r / p.dr⌋ then ((((⌊q.r / p.dr⌋ : K) + 1/2) * p.dr) ^ 2 - (q.midR - p.dr / 2) ^ 2) / (2 * q.midR * p.dr) /
          cellRing e.pi p.dr p.dz ⌊q.r / p.dr⌋ else _) * (if _ = ⌊q.z / p.dz⌋ then _ else if _ = ⌊q.z / p.dz⌋ + 1 then
            (q.midZ - (⌊q.z / p.dz⌋ : K) * p.dz) / p.dz else _)) ≠ 0
      rw [if_pos (show (low p.nr domR a : Int) + (⌊q.r / p.dr⌋ - p.r0 - low p.nr domR a) + (ctxOf p 0 e).g.r0 = ⌊q.r / p.dr⌋ by
          show (low p.nr domR a : Int) + (⌊q.r / p.dr⌋ - p.r0 - low p.nr domR a) + p.r0 = _; omega),
        if_neg (show ¬ ((low p.nz domZ (b+1) : Int) + 0 + (ctxOf p 0 e).g.z0 = ⌊q.z / p.dz⌋) by
          show ¬ ((low p.nz domZ (b+1) : Int) + 0 + ((0 : Nat) : Int) = _); omega),
        if_pos (show (low p.nz domZ (b+1) : Int) + 0 + (ctxOf p 0 e).g.z0 = ⌊q.z / p.dz⌋ + 1 by
          show (low p.nz domZ (b+1) : Int) + 0 + ((0 : Nat) : Int) = _; omega)]
      have pi : 0 < e.pi := hx.pi
      generalize ⌊q.r / p.dr⌋ = i at *
      generalize ⌊q.z / p.dz⌋ = k at *
      have ring0 : 0 < cellRing e.pi p.dr p.dz (i : K) := by
        unfold cellRing
        have : (((i : K) + 1) * p.dr) ^ 2 - ((i : K) * p.dr) ^ 2 = p.dr * p.dr * (2 * i + 1) := by ring
        rw [this]; positivity
      refine mul_ne_zero (mul_ne_zero h0 hv) (mul_ne_zero (div_ne_zero (div_ne_zero ?_ (by positivity)) ring0.ne') (div_ne_zero ?_ dz.ne'))
      · have hm : q.midR < ((i : K) + 1) * p.dr := by unfold Part.midR; linarith [f1.2, f2.2]
        have : (((i : K) + 1/2) * p.dr) ^ 2 - (q.midR - p.dr / 2) ^ 2 = (((i : K) + 1) * p.dr - q.midR) * ((i : K) * p.dr + q.midR) := by
          ring
        rw [this]
        refine mul_ne_zero (sub_pos.mpr hm).ne' ?_
        have : 0 ≤ (i : K) * p.dr := mul_nonneg pos dr.le
        exact (show (0 : K) < _ by linarith).ne'
      · unfold Part.midZ
        exact (show (0 : K) < _ by linarith [f3.1]).ne'
    · unfold CellOf at hc
      show (0 ≤ (low p.nr domR a : Int) + (⌊q.r / p.dr⌋ - p.r0 - low p.nr domR a) ∧
        (low p.nr domR a : Int) + (⌊q.r / p.dr⌋ - p.r0 - low p.nr domR a) < (p.nr : Int)) ∧
        (0 ≤ (low p.nz domZ (b+1) : Int) + 0 ∧ (low p.nz domZ (b+1) : Int) + 0 < (p.nz : Int))
      omega

/-! ## Non-vacuity: an area of 4 × 4 cells in 2 × 2 domains -/

/-- Constants of the examples. -/
def exConsts : Consts ℚ := ⟨3, 1/1000, fun _ => 0⟩

theorem ex_area_good : (ctxOf exArea 0 exConsts).Good := by
  refine ⟨⟨?_, ?_, ?_, ?_⟩, ?_, ?_, ?_⟩ <;> norm_num [ctxOf, exArea, exConsts]

theorem ex_area_divided : Divided exArea 2 2 :=
  ⟨by decide, by decide, by decide, by decide, by decide, by decide, by decide, by decide, by decide⟩

/-- One particle in every domain; three of them have crossed a border of domains. -/
def exHoused (a b : Nat) : List (Part ℚ) :=
  match a, b with
  | 0, 0 => [⟨1/2, 19/10, 6/10, 18/10, 1, 0, 1, 1⟩]
  | 0, 1 => [⟨1/2, 21/10, 4/10, 19/10, 1, 0, 2, -2⟩]
  | 1, 0 => [⟨21/10, 1/2, 19/10, 1/2, 1, 2, 0, 1⟩]
  | 1, 1 => [⟨21/10, 21/10, 19/10, 19/10, 1, 2, 2, 1⟩]
  | _, _ => []

theorem ex_floor (v : ℚ) : ⌊v / exArea.dr⌋ = ⌊v⌋ ∧ ⌊v / exArea.dz⌋ = ⌊v⌋ := by
  constructor <;> norm_num [exArea]

theorem exHoused_ok : Housed exArea 2 2 exConsts exHoused := by
  intro a b ha hb q hq
  rw [domCtx_eq exArea ex_area_divided]
  obtain rfl | rfl : a = 0 ∨ a = 1 := by omega
  all_goals obtain rfl | rfl : b = 0 ∨ b = 1 := by omega
  all_goals
    obtain rfl := List.mem_singleton.mp hq
    refine ⟨⟨⟨?_, ?_, ?_, ?_⟩, ?_, ?_, ?_, ?_⟩, ?_⟩ <;>
      simp only [Part.NearCell, Ctx.part, ctxOf, exArea] <;> decide +kernel

example : ∀ a b, a < 2 → b < 2 → ∀ q ∈ exHoused a b, ¬ CutsCorner exArea 2 2 a b q := by
  intro a b ha hb q hq
  obtain rfl | rfl : a = 0 ∨ a = 1 := by omega
  all_goals obtain rfl | rfl : b = 0 ∨ b = 1 := by omega
  all_goals
    obtain rfl := List.mem_singleton.mp hq
    simp only [CutsCorner, exArea]
    decide +kernel

example : Slanted exConsts.mnzl 2 2 exHoused := by
  intro a b ha hb q hq
  obtain rfl | rfl : a = 0 ∨ a = 1 := by omega
  all_goals obtain rfl | rfl : b = 0 ∨ b = 1 := by omega
  all_goals
    obtain rfl := List.mem_singleton.mp hq
    simp only [exConsts]
    decide +kernel

example : ∀ a b, a < 2 → b < 2 → ∀ q ∈ exHoused a b, q.rOld ≠ ((⌊q.r / exArea.dr⌋ : ℚ) + 1) * exArea.dr := by
  intro a b ha hb q hq
  obtain rfl | rfl : a = 0 ∨ a = 1 := by omega
  all_goals obtain rfl | rfl : b = 0 ∨ b = 1 := by omega
  all_goals
    obtain rfl := List.mem_singleton.mp hq
    simp only [exArea]
    decide +kernel

/-- A particle that cuts a corner. -/
def exCutter : Part ℚ := ⟨21/10, 3/2, 19/10, 14/10, 1, 2, 1, 1⟩

/-- The hypotheses of `C96_corner_fails`. -/
example : exCutter.Bound (domCtx exArea 2 2 exConsts 1 0).g ∧ ⌊exCutter.rOld / exArea.dr⌋ + 1 = (exArea.r0 : Int) + low exArea.nr 2 1 ∧
    ⌊exCutter.r / exArea.dr⌋ = ⌊exCutter.rOld / exArea.dr⌋ + 1 ∧ ⌊exCutter.z / exArea.dz⌋ + 1 = low exArea.nz 2 1 ∧
    ⌊exCutter.zOld / exArea.dz⌋ = ⌊exCutter.z / exArea.dz⌋ ∧ (⌊exCutter.z / exArea.dz⌋ : ℚ) * exArea.dz < exCutter.zOld ∧ exCutter.q ≠ 0 := by
  rw [domCtx_eq exArea ex_area_divided]
  refine ⟨⟨⟨?_, ?_, ?_, ?_⟩, ?_, ?_, ?_, ?_⟩, ?_⟩ <;> simp only [exCutter, Ctx.part, ctxOf, exArea] <;> decide +kernel

/-- A particle in the last column of domain `(0, 0)`. -/
def exEdge : Part ℚ := ⟨1/2, 19/10, 6/10, 18/10, 1, 0, 1, 1⟩

/-- The hypotheses of `C96_azimuthal_fails`. -/
example : exEdge.Bound (domCtx exArea 2 2 exConsts 0 0).g ∧ exEdge.SameCell (domCtx exArea 2 2 exConsts 0 0).g ∧
    exConsts.mnzl ≤ |exEdge.r - exEdge.rOld| ∧ ⌊exEdge.z / exArea.dz⌋ + 1 = low exArea.nz 2 1 ∧
    (⌊exEdge.z / exArea.dz⌋ : ℚ) * exArea.dz < exEdge.zOld ∧ exEdge.q ≠ 0 ∧ exEdge.vphi ≠ 0 := by
  rw [domCtx_eq exArea ex_area_divided]
  refine ⟨⟨⟨?_, ?_, ?_, ?_⟩, ?_, ?_, ?_, ?_⟩, ?_⟩ <;>
    simp only [exEdge, exConsts, Part.SameCell, Ctx.part, ctxOf, exArea] <;> decide +kernel

end Yee
end Pico
