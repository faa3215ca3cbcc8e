import Verif.Lemmas.CurrentSum
import Verif.Props.Fields
import Mathlib.Algebra.Order.Ring.Rat
import Mathlib.Data.Rat.Floor
import Mathlib.Tactic.NormNum

set_option linter.unusedSimpArgs false
set_option linter.unusedVariables false
set_option linter.unusedSectionVars false

/-!
# Current deposition: charge continuity and accumulation (C17, C18, C19)
-/

namespace Pico
namespace VB

open Yee

variable {K : Type _} [Field K] [LinearOrder K] [IsStrictOrderedRing K] [FloorRing K]

theorem runOps_fine {x : Ctx K} (hx : x.Good) {q r' z' r z : K} {ops : List (Op K)} (h : Fine x q r' z' r z ops)
    (m : Mem K) : ∃ m', runOps x.g ops m = .ok m' ∧
      Continuity x.pi x.dt x.g q r' z' r z (fun c i k => m' c i k - m c i k) ∧
      axialTotal x.pi x.g (fun c i k => m' c i k - m c i k) * x.g.dz = q * ((z' - z) / x.dt) := by
  obtain ⟨m', e, v⟩ := runOps_inc x.g ops h.inc m
  have E : (fun c i k => m' c i k - m c i k) = tot ops := by
    funext c i k; rw [v]; ring
  refine ⟨m', e, by rw [E]; exact h.cont, ?_⟩
  rw [E, h.axial]
  have := hx.geo.dz
  have := hx.dt
  field_simp

theorem put_id (m : Mem K) (c : Comp) (i k : Int) (v : K) (h : m c i k = v) : put m c i k v = m := by
  funext c' i' k'
  unfold put
  split
  · rename_i h'
    obtain ⟨rfl, rfl, rfl⟩ := h'
    exact h.symm
  · rfl

/-- Axial motion over cells without radial current. -/
theorem axial_run (x : Ctx K) (hx : x.Good) (p : Part K) (hb : p.Bound x.g) (hn : p.NearCell x.g)
    (hr : p.r = p.rOld) (hz : x.mnzl ≤ |p.z - p.zOld|) (m : Mem K)
    (hm : ∀ i k, insideG x.g i k → m .jr i k = 0) :
    ∃ m', rzParticle x p m = .ok m' ∧
      Continuity x.pi x.dt x.g p.q p.r p.z p.rOld p.zOld (fun c i k => m' c i k - m c i k) ∧
      axialTotal x.pi x.g (fun c i k => m' c i k - m c i k) * x.g.dz = p.q * ((p.z - p.zOld) / x.dt) := by
  have dr := hx.geo.dr
  have dz := hx.geo.dz
  have mn := hx.mnzl
  obtain ⟨h1, h2, h3, h4⟩ := bound_cells hx.geo hb
  have f1 := floor_cell dr p.r
  have f2 := floor_cell dz p.z
  have f3 := floor_cell dz p.zOld
  have z0 : |p.r - p.rOld| < x.mnzl := by rw [hr, sub_self, abs_zero]; exact mn
  obtain ⟨ops, fine, e⟩ := axial_fine x hx p hr.symm hb.rpos (i := ⌊p.r / x.g.dr⌋) (k := ⌊p.z / x.g.dz⌋)
    (l := ⌊p.zOld / x.g.dz⌋) h2 h3 h4 ⟨f1.1, f1.2.le⟩ ⟨f2.1, f2.2.le⟩ ⟨f3.1, f3.2.le⟩ hn.2
  obtain ⟨m', em, v⟩ := runOps_fine hx fine m
  refine ⟨m', ?_, v⟩
  unfold rzParticle
  rw [rzOps_eq x hx p hb hn, if_pos (Or.inl z0), strictMotion_eq x hx p hb hn, Res.ok_bind,
    if_neg (fun h => absurd h.2 (not_lt.mpr hz)), if_pos z0, e]
  have i1 : insideG x.g (⌊p.r / x.g.dr⌋ - x.g.r0) (⌊p.z / x.g.dz⌋ - x.g.z0) := by unfold insideG; omega
  have i2 : insideG x.g (⌊p.r / x.g.dr⌋ - x.g.r0) (⌊p.z / x.g.dz⌋ - x.g.z0 + 1) := by unfold insideG; omega
  unfold runOps at em ⊢
  rw [loop_cons]
  show ((if insideG x.g _ _ then _ else _) >>= _) = _
  rw [if_pos i1, Res.ok_bind, put_id _ _ _ _ _ (hm _ _ i1), loop_cons]
  show ((if insideG x.g _ _ then _ else _) >>= _) = _
  rw [if_pos i2, Res.ok_bind, put_id _ _ _ _ _ (hm _ _ i2)]
  exact em

/-! ### C17 -/

/-- C17: motion inside one cell.  The deposited currents satisfy the continuity equation at every node,
and the total axial current is charge times axial velocity (per cell length). Whatever the grids held
before is kept, except that a motion exactly along the axis is covered only on grids without radial
current (see `C19_axial_erases`). -/
theorem C17_continuity (x : Ctx K) (hx : x.Good) (p : Part K) (hb : p.Bound x.g) (hs : p.SameCell x.g)
    (hl : p.Plain x.mnzl) (m : Mem K)
    (hm : p.r = p.rOld → ∀ i k, insideG x.g i k → m .jr i k = 0) :
    ∃ m', rzParticle x p m = .ok m' ∧
      Continuity x.pi x.dt x.g p.q p.r p.z p.rOld p.zOld (fun c i k => m' c i k - m c i k) ∧
      axialTotal x.pi x.g (fun c i k => m' c i k - m c i k) * x.g.dz = p.q * ((p.z - p.zOld) / x.dt) := by
  have dr := hx.geo.dr
  have dz := hx.geo.dz
  have mn := hx.mnzl
  obtain ⟨s1, s2⟩ := hs
  have hn : p.NearCell x.g := by unfold Part.NearCell; omega
  obtain ⟨h1, h2, h3, h4⟩ := bound_cells hx.geo hb
  have fr := floor_cell dr p.r
  have fz := floor_cell dz p.z
  have fr' := floor_cell dr p.rOld
  have fz' := floor_cell dz p.zOld
  rw [s1] at fr'
  rw [s2] at fz'
  have C : InCell x.g p.r p.z ⌊p.r / x.g.dr⌋ ⌊p.z / x.g.dz⌋ := ⟨hb.rpos, fr.1, fr.2.le, fz.1, fz.2.le⟩
  have C' : InCell x.g p.rOld p.zOld ⌊p.r / x.g.dr⌋ ⌊p.z / x.g.dz⌋ := ⟨hb.rOldPos, fr'.1, fr'.2.le, fz'.1, fz'.2.le⟩
  have room : Room x.g ⌊p.r / x.g.dr⌋ ⌊p.z / x.g.dz⌋ := by unfold Room; omega
  obtain ⟨lr, lz⟩ := hl
  rcases lr with er | lr
  · rcases lz with ez | lz
    · refine ⟨m, ?_, ?_, ?_⟩
      · have z1 : |p.r - p.rOld| < x.mnzl := by rw [er, sub_self, abs_zero]; exact mn
        have z2 : |p.z - p.zOld| < x.mnzl := by rw [ez, sub_self, abs_zero]; exact mn
        unfold rzParticle
        rw [rzOps_eq x hx p hb hn, if_pos (Or.inl z1), strictMotion_eq x hx p hb hn, Res.ok_bind, if_pos ⟨z1, z2⟩]
        rfl
      · intro a b _
        rw [er, ez]
        unfold outflow
        ring
      · rw [axialTotal_zero _ _ _ (fun _ _ => sub_self _), ez]
        simp
    · exact axial_run x hx p hb hn er lz m (hm er)
  · have F : ∃ ops, rzOps x p = .ok ops ∧ Fine x p.q p.r p.z p.rOld p.zOld ops := by
      rw [rzOps_eq x hx p hb hn]
      rcases lz with ez | lz
      · have z2 : |p.z - p.zOld| < x.mnzl := by rw [ez, sub_self, abs_zero]; exact mn
        rw [if_pos (Or.inr z2), strictMotion_eq x hx p hb hn, if_neg (fun h => absurd h.1 (not_lt.mpr lr)),
          if_neg (not_lt.mpr lr), if_pos z2, s1]
        exact ⟨_, rfl, radial_fine x hx p room ez.symm C' C⟩
      · rw [if_neg (fun h => h.elim (not_lt.mpr lr) (not_lt.mpr lz)), s1, s2]
        refine ⟨_, rfl, ?_⟩
        unfold switchOps
        dsimp only
        rw [if_pos (by omega)]
        have A := piece x hx p (s := 0) (t := 1) room
          (by rw [rAt_zero, zAt_zero]; exact C') (by rw [rAt_one, zAt_one]; exact C)
          (Or.inr (by rw [rAt_zero, zAt_zero, rAt_one, zAt_one]; exact ⟨lr, lz⟩))
        rw [rAt_zero, zAt_zero, rAt_one, zAt_one] at A
        exact A
    obtain ⟨ops, e, fine⟩ := F
    obtain ⟨m', em, v⟩ := runOps_fine hx fine m
    refine ⟨m', ?_, v⟩
    unfold rzParticle
    rw [e, Res.ok_bind]
    exact em

/-! ### C18 -/

/-- C18, the part that holds: a path in general position, over any of the nine neighbourhoods of
cells, satisfies the continuity equation on top of whatever the grids held.  Missing: paths through
a corner, paths starting on a border (both fail, see below), pieces shorter than `mnzl` (dropped). -/
theorem C18_continuity_partial (x : Ctx K) (hx : x.Good) (p : Part K) (hb : p.Bound x.g) (hn : p.NearCell x.g)
    (hp : p.General x.g x.mnzl) (m : Mem K) :
    ∃ m', rzParticle x p m = .ok m' ∧
      Continuity x.pi x.dt x.g p.q p.r p.z p.rOld p.zOld (fun c i k => m' c i k - m c i k) ∧
      axialTotal x.pi x.g (fun c i k => m' c i k - m c i k) * x.g.dz = p.q * ((p.z - p.zOld) / x.dt) := by
  obtain ⟨ops, e, fine⟩ := rzOps_general x hx p hb hn hp
  obtain ⟨m', em, v⟩ := runOps_fine hx fine m
  refine ⟨m', ?_, v⟩
  unfold rzParticle
  rw [e, Res.ok_bind]
  exact em

/-- C18 for motion exactly along the axis over at most one border. -/
theorem C18_axial_partial (x : Ctx K) (hx : x.Good) (p : Part K) (hb : p.Bound x.g) (hn : p.NearCell x.g)
    (hr : p.r = p.rOld) (hz : x.mnzl ≤ |p.z - p.zOld|) (m : Mem K)
    (hm : ∀ i k, insideG x.g i k → m .jr i k = 0) :
    ∃ m', rzParticle x p m = .ok m' ∧
      Continuity x.pi x.dt x.g p.q p.r p.z p.rOld p.zOld (fun c i k => m' c i k - m c i k) ∧
      axialTotal x.pi x.g (fun c i k => m' c i k - m c i k) * x.g.dz = p.q * ((p.z - p.zOld) / x.dt) :=
  axial_run x hx p hb hn hr hz m hm

theorem depositBy_fine {x : Ctx K} {p : Part K} {ops : List (Op K)} (e : rzOps x p = .ok ops) :
    depositBy x p = tot ops := by
  funext c i k; unfold depositBy; rw [e]

theorem outflow_sum (pi : K) (g : Geom K) (ps : List (Part K)) (f : Part K → Comp → Int → Int → K) (a b : Int) :
    outflow pi g (fun c i k => (ps.map (fun p => f p c i k)).sum) a b =
      (ps.map (fun p => outflow pi g (f p) a b)).sum := by
  induction ps with
  | nil => simp [outflow]
  | cons p l ih => simp only [List.map_cons, List.sum_cons, outflow_add, ih]

/-- The operation touches the radial or the axial current. -/
def Op.RZ : Op K → Prop
  | .inc c _ _ _ => c = .jr ∨ c = .jz
  | .set c _ _ _ => c = .jr ∨ c = .jz

theorem runOps_rz (g : Geom K) (ops : List (Op K)) (h : ∀ o ∈ ops, o.RZ) {m m' : Mem K}
    (e : runOps g ops m = .ok m') (d : Comp) (h1 : d ≠ .jr) (h2 : d ≠ .jz) : ∀ i k, m' d i k = m d i k := by
  induction ops generalizing m with
  | nil => obtain rfl := Res.ok.inj e; exact fun _ _ => rfl
  | cons o l ih =>
    unfold runOps at e ih
    rw [loop_cons] at e
    have ho := h o (by simp)
    have hl : ∀ o ∈ l, o.RZ := fun o h' => h o (by simp [h'])
    cases o with
    | inc c a b w =>
      simp only [runOp] at e
      split at e
      · intro i k
        rw [ih hl e i k]
        exact put_comp _ _ _ _ _ _ (fun e => ho.elim (fun h => h1 (e.trans h)) (fun h => h2 (e.trans h)))
      · cases e
    | set c a b w =>
      simp only [runOp] at e
      split at e
      · intro i k
        rw [ih hl e i k]
        exact put_comp _ _ _ _ _ _ (fun e => ho.elim (fun h => h1 (e.trans h)) (fun h => h2 (e.trans h)))
      · cases e

theorem rzOps_rz (x : Ctx K) (p : Part K) {ops : List (Op K)} (e : rzOps x p = .ok ops) : ∀ o ∈ ops, o.RZ := by
  have N : ∀ o ∈ ([] : List (Op K)), o.RZ := by intro o ho; simp at ho
  have A : ∀ l l' : List (Op K), (∀ o ∈ l, o.RZ) → (∀ o ∈ l', o.RZ) → ∀ o ∈ l ++ l', o.RZ :=
    fun l l' h h' o ho => (List.mem_append.mp ho).elim (h o) (h' o)
  have S : ∀ (a b c d : K) (u v : Int), ∀ o ∈ simple x a b c d u v p.q, o.RZ := by
    intro a b c d u v o ho
    unfold simple at ho
    split at ho
    · simp at ho
    · simp only [List.mem_cons, List.not_mem_nil, or_false] at ho
      rcases ho with rfl | rfl | rfl | rfl <;> (unfold Op.RZ; dsimp only; first | exact Or.inl rfl | exact Or.inr rfl)
  have Ax : ∀ (a b c : K) (u v w : Int), ∀ o ∈ strictAxial x a b c u v w p.q, o.RZ := by
    intro a b c u v w o ho
    unfold strictAxial at ho
    dsimp only at ho
    split_ifs at ho <;> simp only [List.mem_cons, List.not_mem_nil, or_false, List.cons_append, List.nil_append] at ho
    all_goals first
      | (rcases ho with rfl | rfl | rfl | rfl | rfl | rfl <;> (unfold Op.RZ; dsimp only; first | exact Or.inl rfl | exact Or.inr rfl))
  have Ra : ∀ (a b c : K) (u v w : Int), ∀ o ∈ strictRadial x a b c u v w p.q, o.RZ := by
    intro a b c u v w o ho
    unfold strictRadial at ho
    dsimp only at ho
    split_ifs at ho <;> simp only [List.mem_cons, List.not_mem_nil, or_false] at ho
    · rcases ho with rfl | rfl <;> (unfold Op.RZ; dsimp only; first | exact Or.inl rfl | exact Or.inr rfl)
    · rcases ho with rfl | rfl | rfl | rfl <;> (unfold Op.RZ; dsimp only; first | exact Or.inl rfl | exact Or.inr rfl)
    · rcases ho with rfl | rfl | rfl | rfl <;> (unfold Op.RZ; dsimp only; first | exact Or.inl rfl | exact Or.inr rfl)
  have c1 : ∀ i k, ∀ o ∈ crossR x p i k, o.RZ := by
    intro i k; unfold crossR; dsimp only; split <;> (apply A <;> apply S)
  have c2 : ∀ i k, ∀ o ∈ crossZ x p i k, o.RZ := by
    intro i k; unfold crossZ; dsimp only; split <;> (apply A <;> apply S)
  have c3 : ∀ i k, ∀ o ∈ crossUpRight x p i k, o.RZ := by
    intro i k; unfold crossUpRight; dsimp only
    split
    · apply A; apply A
      all_goals (apply S)
    · split
      · apply A; apply A
        all_goals (apply S)
      · exact N
  have c4 : ∀ i k, ∀ o ∈ crossUpLeft x p i k, o.RZ := by
    intro i k; unfold crossUpLeft; dsimp only
    split
    · apply A; apply A
      all_goals (apply S)
    · split
      · apply A; apply A
        all_goals (apply S)
      · exact N
  have c5 : ∀ i k, ∀ o ∈ crossDownRight x p i k, o.RZ := by
    intro i k; unfold crossDownRight; dsimp only
    split
    · apply A; apply A
      all_goals (apply S)
    · split
      · apply A; apply A
        all_goals (apply S)
      · exact N
  have c6 : ∀ i k, ∀ o ∈ crossDownLeft x p i k, o.RZ := by
    intro i k; unfold crossDownLeft; dsimp only
    split
    · apply A; apply A
      all_goals (apply S)
    · split
      · apply A; apply A
        all_goals (apply S)
      · exact N
  have sw : ∀ i k j l, ∀ o ∈ switchOps x p i k j l, o.RZ := by
    intro i k j l
    unfold switchOps
    dsimp only
    split_ifs
    · exact S _ _ _ _ _ _
    · exact c1 _ _
    · exact c2 _ _
    · exact N
    · exact c3 _ _
    · exact c4 _ _
    · exact c5 _ _
    · exact c6 _ _
    · exact N
    · exact N
    · exact N
  unfold rzOps at e
  cases h1 : cellNumber p.rOld x.g.dr with
  | fatal => rw [h1] at e; cases e
  | ub => rw [h1] at e; cases e
  | ok i0 =>
  cases h2 : cellNumber p.zOld x.g.dz with
  | fatal => rw [h1, Res.ok_bind, h2] at e; cases e
  | ub => rw [h1, Res.ok_bind, h2] at e; cases e
  | ok k0 =>
  rw [h1, Res.ok_bind, h2, Res.ok_bind] at e
  dsimp only at e
  generalize (if p.rOld = ((i0 : K) + 1) * x.g.dr then p.cellR else i0) = iO at e
  generalize (if p.zOld = ((k0 : K) + 1) * x.g.dz then p.cellZ else k0) = kO at e
  generalize (if p.r = ((p.cellR : K) + 1) * x.g.dr then iO else p.cellR) = iN at e
  generalize (if p.z = ((p.cellZ : K) + 1) * x.g.dz then kO else p.cellZ) = kN at e
  split at e
  · obtain rfl := Res.ok.inj e; exact N
  · split at e
    · unfold strictMotion at e
      rw [h1, h2] at e
      cases h3 : cellNumber p.r x.g.dr with
      | fatal => rw [h3] at e; cases e
      | ub => rw [h3] at e; cases e
      | ok i1 =>
      cases h4 : cellNumber p.z x.g.dz with
      | fatal => rw [h3, h4] at e; cases e
      | ub => rw [h3, h4] at e; cases e
      | ok k1 =>
      rw [h3, h4] at e
      simp only [Res.ok_bind] at e
      obtain rfl := Res.ok.inj e
      split_ifs
      · exact N
      · exact Ax _ _ _ _ _ _
      · exact Ra _ _ _ _ _ _
      · exact N
    · obtain rfl := Res.ok.inj e; exact sw _ _ _ _

theorem rz_other (x : Ctx K) (d : Comp) (h1 : d ≠ .jr) (h2 : d ≠ .jz) (ps : List (Part K)) (a b : Mem K)
    (e : loop (rzParticle x) ps a = .ok b) : ∀ i k, b d i k = a d i k := by
  induction ps generalizing a with
  | nil => intro i k; obtain rfl := Res.ok.inj e; rfl
  | cons p l ih =>
    intro i k
    rw [loop_cons] at e
    unfold rzParticle at e
    cases h3 : rzOps x p with
    | fatal => rw [h3] at e; cases e
    | ub => rw [h3] at e; cases e
    | ok ops =>
    cases h4 : runOps x.g ops a with
    | fatal => rw [h3, Res.ok_bind, h4] at e; cases e
    | ub => rw [h3, Res.ok_bind, h4] at e; cases e
    | ok c =>
    rw [h3, Res.ok_bind, h4, Res.ok_bind] at e
    rw [ih c e i k]
    exact runOps_rz x.g ops (rzOps_rz x p h3) h4 d h1 h2 i k

/-- C18 for a whole current step: reset, then the deposition of any number of particles.  The charge
of all particles at a node changes by minus `dt` times the outflow of the deposited currents. -/
theorem C18_run_partial (x : Ctx K) (hx : x.Good) (ps : List (Part K))
    (hps : ∀ p ∈ ps, p.Bound x.g ∧ p.NearCell x.g ∧ p.General x.g x.mnzl) (m : Mem K) :
    ∃ m', currentDistribution x ps (resetCurrent x.g m) = .ok m' ∧
      (∀ c i k, c ≠ .jr → c ≠ .jp → c ≠ .jz → m' c i k = m c i k) ∧
      ∀ a b : Int, 0 ≤ a + x.g.r0 → -1 ≤ a → a < x.g.nr + 2 → -1 ≤ b → b < x.g.nz + 2 →
        (ps.map (fun p => nodeCharge x.g p.q p.r p.z (a + x.g.r0) (b + x.g.z0))).sum -
          (ps.map (fun p => nodeCharge x.g p.q p.rOld p.zOld (a + x.g.r0) (b + x.g.z0))).sum =
        - x.dt * outflow x.pi x.g m' a b := by
  obtain ⟨m1, e1, v1⟩ := loop_azimuthal x hx ps (fun p hp => (hps p hp).1) (overlayClear x.g (resetCurrent x.g m))
  obtain ⟨m2, e2, v2⟩ := loop_deposits x ps (fun p hp => by
    obtain ⟨h1, h2, h3⟩ := hps p hp
    obtain ⟨ops, e, fine⟩ := rzOps_general x hx p h1 h2 h3
    exact ⟨ops, e, fine.inc⟩) (overlayClear x.g m1)
  refine ⟨m2, ?_, ?_, ?_⟩
  · unfold currentDistribution azimuthal
    rw [e1, Res.ok_bind]
    exact e2
  · intro c i k n1 n2 n3
    have nc : ¬ (c = .jr ∨ c = .jp ∨ c = .jz) := by
      rintro (h | h | h)
      · exact n1 h
      · exact n2 h
      · exact n3 h
    rw [rz_other x c n1 n3 ps _ _ e2 i k]
    unfold overlayClear
    rw [if_neg (fun h => nc h.1), v1, List.map_congr_left (fun p _ => azimuthalOps_tot x p c n2 i k)]
    unfold overlayClear resetCurrent
    rw [if_neg (fun h => nc h.1), if_neg (fun h => nc h.1)]
    simp
  · have J : ∀ c, c = .jr ∨ c = .jz → ∀ i k, insideG x.g i k →
        m2 c i k = (ps.map (fun p => depositBy x p c i k)).sum := by
      intro c hc i k hin
      have hc' : c = .jr ∨ c = .jp ∨ c = .jz := by rcases hc with h | h <;> simp [h]
      have hp' : c ≠ .jp := by rcases hc with h | h <;> simp [h]
      rw [v2]
      have z : m1 c i k = 0 := by
        rw [v1]
        have : (ps.map (fun p => tot (azimuthalOps x p) c i k)).sum = 0 := by
          rw [List.map_congr_left (fun p _ => azimuthalOps_tot x p c hp' i k)]
          simp
        rw [this, add_zero]
        unfold overlayClear resetCurrent
        split
        · rfl
        · rw [if_pos ⟨hc', hin⟩]
      unfold overlayClear
      split
      · rw [zero_add]
      · rw [z, zero_add]
    intro a b ha a1 a2 b1 b2
    have E : outflow x.pi x.g m2 a b =
        outflow x.pi x.g (fun c i k => (ps.map (fun p => depositBy x p c i k)).sum) a b := by
      unfold outflow
      rw [J .jr (Or.inl rfl) a b (by unfold insideG; omega), J .jr (Or.inl rfl) (a - 1) b (by unfold insideG; omega),
        J .jz (Or.inr rfl) a b (by unfold insideG; omega), J .jz (Or.inr rfl) a (b - 1) (by unfold insideG; omega)]
    rw [E, outflow_sum]
    clear E J v2 v1 e1 e2
    induction ps with
    | nil => simp
    | cons p l ih =>
      have ih := ih (fun q hq => hps q (by simp [hq]))
      obtain ⟨h1, h2, h3⟩ := hps p (by simp)
      obtain ⟨ops, e, fine⟩ := rzOps_general x hx p h1 h2 h3
      have c := fine.cont a b ha
      rw [← depositBy_fine e] at c
      simp only [List.map_cons, List.sum_cons]
      rw [mul_add, ← ih, ← c]
      ring

/-- Depositing nothing breaks continuity as soon as the particle leaves its cell row. -/
theorem nothing_fails (x : Ctx K) (hx : x.Good) (p : Part K) (hb : p.Bound x.g) (hq : p.q ≠ 0)
    (hi : ⌊p.r / x.g.dr⌋ = ⌊p.rOld / x.g.dr⌋ + 1) :
    ¬ Continuity x.pi x.dt x.g p.q p.r p.z p.rOld p.zOld (fun _ _ _ => 0) := by
  intro h
  have dr := hx.geo.dr
  have dz := hx.geo.dz
  obtain ⟨h1, h2, h3, h4⟩ := bound_cells hx.geo hb
  have fr := floor_cell dr p.r
  have fz := floor_cell dz p.z
  have := h (⌊p.rOld / x.g.dr⌋ - x.g.r0) (⌊p.zOld / x.g.dz⌋ - x.g.z0) (by omega)
  rw [sub_add_cancel, sub_add_cancel] at this
  rw [nodeCharge_far hx.geo h2 ⟨hb.rpos, fr.1, fr.2.le, fz.1, fz.2.le⟩ p.q _ h1 (by omega) (by omega)] at this
  refine nodeCharge_pos hx.geo hb.rOldPos h1 (floor_cell dr p.rOld) (floor_cell dz p.zOld) hq ?_
  unfold outflow at this
  simp only [mul_zero, sub_self, add_zero] at this
  linarith

/-- C18 fails: a path outward and forward through a corner of a cell deposits nothing at all. -/
theorem C18_corner_fails (x : Ctx K) (hx : x.Good) (p : Part K) (hb : p.Bound x.g)
    (hi : ⌊p.r / x.g.dr⌋ = ⌊p.rOld / x.g.dr⌋ + 1) (hk : ⌊p.z / x.g.dz⌋ = ⌊p.zOld / x.g.dz⌋ + 1)
    (hl : x.mnzl ≤ |p.r - p.rOld| ∧ x.mnzl ≤ |p.z - p.zOld|) (hq : p.q ≠ 0) (t : K)
    (hr : p.rAt t = (⌊p.r / x.g.dr⌋ : K) * x.g.dr) (hz : p.zAt t = (⌊p.z / x.g.dz⌋ : K) * x.g.dz) (m : Mem K) :
    rzParticle x p m = .ok m ∧
      ¬ Continuity x.pi x.dt x.g p.q p.r p.z p.rOld p.zOld (fun c i k => m c i k - m c i k) := by
  have mn := hx.mnzl
  have hD : p.r - p.rOld ≠ 0 := by
    intro e; have := hl.1; rw [e, abs_zero] at this; linarith
  have hE : p.z - p.zOld ≠ 0 := by
    intro e; have := hl.2; rw [e, abs_zero] at this; linarith
  constructor
  · unfold rzParticle
    rw [rzOps_eq x hx p hb (by unfold Part.NearCell; omega),
      if_neg (fun h => h.elim (not_lt.mpr hl.1) (not_lt.mpr hl.2)), Res.ok_bind]
    have z1 : p.zOld + ((⌊p.r / x.g.dr⌋ : K) * x.g.dr - p.rOld) / ((p.r - p.rOld) / (p.z - p.zOld)) =
        (⌊p.z / x.g.dz⌋ : K) * x.g.dz := by
      rw [← hr, ← hz]
      unfold Part.rAt Part.zAt
      field_simp
      ring
    have e : switchOps x p ⌊p.r / x.g.dr⌋ ⌊p.z / x.g.dz⌋ ⌊p.rOld / x.g.dr⌋ ⌊p.zOld / x.g.dz⌋ = [] := by
      unfold switchOps crossUpRight
      dsimp only
      rw [if_neg (by omega), if_neg (by omega), if_pos (by omega), if_pos (by omega), if_pos (by omega), z1,
        if_neg (lt_irrefl _), if_neg (lt_irrefl _)]
    rw [e]
    rfl
  · have e : (fun (c : Comp) (i k : Int) => m c i k - m c i k) = fun _ _ _ => (0 : K) := by
      funext c i k; exact sub_self _
    rw [e]
    exact nothing_fails x hx p hb hq hi

/-- C18 fails: a path that starts exactly on the outer border of its new cell and goes inward is
taken for a path outward; currents appear at a node that never sees the particle. -/
theorem C18_border_start_fails (x : Ctx K) (hx : x.Good) (p : Part K) (hb : p.Bound x.g)
    (hi : 1 ≤ ⌊p.r / x.g.dr⌋) (hr : p.rOld = ((⌊p.r / x.g.dr⌋ : K) + 1) * x.g.dr)
    (hk : ⌊p.z / x.g.dz⌋ = ⌊p.zOld / x.g.dz⌋)
    (hl : x.mnzl ≤ |p.r - p.rOld| ∧ x.mnzl ≤ |p.z - p.zOld|) (hq : p.q ≠ 0) (m : Mem K) :
    ∃ m', rzParticle x p m = .ok m' ∧
      ¬ Continuity x.pi x.dt x.g p.q p.r p.z p.rOld p.zOld (fun c i k => m' c i k - m c i k) := by
  have mn := hx.mnzl
  have dr := hx.geo.dr
  have dz := hx.geo.dz
  have dt := hx.dt
  obtain ⟨h1, h2, h3, h4⟩ := bound_cells hx.geo hb
  have fr := floor_cell dr p.r
  have fz := floor_cell dz p.z
  have fz' := floor_cell dz p.zOld
  have hj : ⌊p.rOld / x.g.dr⌋ = ⌊p.r / x.g.dr⌋ + 1 := by
    rw [hr, mul_div_assoc, div_self dr.ne', mul_one]
    exact_mod_cast Int.floor_intCast (⌊p.r / x.g.dr⌋ + 1)
  have hD : p.r - p.rOld ≠ 0 := by
    intro e; have := hl.1; rw [e, abs_zero] at this; linarith
  have hE : p.z - p.zOld ≠ 0 := by
    intro e; have := hl.2; rw [e, abs_zero] at this; linarith
  have hn : p.NearCell x.g := by unfold Part.NearCell; omega
  have e := rzOps_eq x hx p hb hn
  rw [if_neg (fun h => h.elim (not_lt.mpr hl.1) (not_lt.mpr hl.2)), ← hk] at e
  generalize ⌊p.r / x.g.dr⌋ = i at *
  generalize ⌊p.z / x.g.dz⌋ = k at *
  have inc := switch_inc x p (i := i) (k := k) (j := ⌊p.rOld / x.g.dr⌋) (l := k) h3 h4
  obtain ⟨m', em, v⟩ := runOps_inc x.g _ inc m
  refine ⟨m', by unfold rzParticle; rw [e, Res.ok_bind]; exact em, ?_⟩
  intro C
  have E : (fun c i k => m' c i k - m c i k) = tot (switchOps x p i k ⌊p.rOld / x.g.dr⌋ k) := by
    funext c i k; rw [v]; ring
  rw [E] at C
  have hi0 : (1 : K) ≤ (i : K) := by exact_mod_cast hi
  -- the branch taken
  have S : switchOps x p i k ⌊p.rOld / x.g.dr⌋ k =
      simple x ((i : K) * x.g.dr) (p.zOld + ((i : K) * x.g.dr - p.rOld) / ((p.r - p.rOld) / (p.z - p.zOld)))
        p.rOld p.zOld (i - 1) k p.q ++
      simple x p.r p.z ((i : K) * x.g.dr) (p.zOld + ((i : K) * x.g.dr - p.rOld) / ((p.r - p.rOld) / (p.z - p.zOld)))
        i k p.q := by
    unfold switchOps crossR
    dsimp only
    rw [if_neg (by omega), if_pos (by omega), if_pos (by omega), if_neg (by rw [hr]; exact lt_irrefl _)]
  generalize hzb : p.zOld + ((i : K) * x.g.dr - p.rOld) / ((p.r - p.rOld) / (p.z - p.zOld)) = zb at S
  have lr : (i : K) * x.g.dr - p.rOld = - x.g.dr := by rw [hr]; ring
  have rneg : p.r - p.rOld < 0 := by rw [hr]; linarith [fr.2]
  have rge : - x.g.dr ≤ p.r - p.rOld := by rw [hr]; linarith [fr.1]
  have mdr : x.mnzl ≤ x.g.dr := by
    have := hl.1
    rw [abs_of_neg rneg] at this
    linarith
  have ezb : zb - p.zOld = (p.z - p.zOld) * (x.g.dr / -(p.r - p.rOld)) := by
    rw [← hzb, lr]
    field_simp
    ring
  have lz : x.mnzl ≤ |zb - p.zOld| := by
    rw [ezb, abs_mul]
    have : 1 ≤ |x.g.dr / -(p.r - p.rOld)| := by
      rw [abs_of_pos (div_pos dr (by linarith)), le_div_iff₀ (by linarith)]
      linarith
    nlinarith [hl.2, abs_nonneg (p.z - p.zOld)]
  have nzb : zb - p.zOld ≠ 0 := by
    intro e0; rw [e0, abs_zero] at lz; linarith
  have S1 : simple x ((i : K) * x.g.dr) zb p.rOld p.zOld (i - 1) k p.q =
      [.inc .jz (i - 1 - x.g.r0) (k - x.g.z0) (simpleZ x ((i : K) * x.g.dr) zb p.rOld p.zOld (i - 1) p.q).1,
      .inc .jz (i - 1 - x.g.r0 + 1) (k - x.g.z0) (simpleZ x ((i : K) * x.g.dr) zb p.rOld p.zOld (i - 1) p.q).2,
      .inc .jr (i - 1 - x.g.r0) (k - x.g.z0) (simpleR x ((i : K) * x.g.dr) zb p.rOld p.zOld (i - 1) k p.q).1,
      .inc .jr (i - 1 - x.g.r0) (k - x.g.z0 + 1) (simpleR x ((i : K) * x.g.dr) zb p.rOld p.zOld (i - 1) k p.q).2] := by
    unfold simple
    rw [if_neg]
    rw [lr, abs_neg, abs_of_pos dr]
    exact fun h => h.elim (not_lt.mpr mdr) (not_lt.mpr lz)
  have S2 : ∀ c u v, u = i - 1 - x.g.r0 ∨ u = i - 2 - x.g.r0 →
      tot (simple x p.r p.z ((i : K) * x.g.dr) zb i k p.q) c u v = 0 := by
    intro c u v hu
    unfold simple
    have a1 : ¬ u = i - x.g.r0 := by omega
    have a2 : ¬ u = i - x.g.r0 + 1 := by omega
    split
    · rfl
    · simp [tot_cons, tot_nil, Op.val, a1, a2]
  have R1 := piece_r1 x hx (q := p.q) (k := k) (i := i - 1) (by omega) hb.rOldPos (r' := (i : K) * x.g.dr)
    (z := p.zOld) (z' := zb) (by positivity) (by rw [lr]; exact neg_ne_zero.mpr dr.ne') nzb
  have Z1 := piece_z1 x hx (q := p.q) (i := i - 1) (by omega) hb.rOldPos (r' := (i : K) * x.g.dr)
    (z := p.zOld) (z' := zb) (by positivity) (by rw [lr]; exact neg_ne_zero.mpr dr.ne') nzb
  rw [← Z1] at R1
  have N := C (i - 1 - x.g.r0) (k - x.g.z0) (by omega)
  rw [sub_add_cancel, sub_add_cancel] at N
  have b1 : ((i : K)) * x.g.dr ≤ p.rOld := by rw [hr]; linarith
  rw [nodeCharge_far hx.geo (i := i) (by omega) ⟨hb.rpos, fr.1, fr.2.le, fz.1, fz.2.le⟩ p.q _ (by omega) (by omega) (by omega),
    nodeCharge_far hx.geo (i := i) (k := k) (by omega) ⟨hb.rOldPos, b1, hr.le, by rw [hk]; exact fz'.1, by rw [hk]; exact fz'.2.le⟩ p.q _ (by omega)
      (by omega) (by omega)] at N
  have O : outflow x.pi x.g (tot (switchOps x p i k ⌊p.rOld / x.g.dr⌋ k)) (i - 1 - x.g.r0) (k - x.g.z0) =
      faceR x.pi x.g (i - 1) * (simpleR x ((i : K) * x.g.dr) zb p.rOld p.zOld (i - 1) k p.q).1 +
      faceZ x.pi x.g (i - 1) * (simpleZ x ((i : K) * x.g.dr) zb p.rOld p.zOld (i - 1) p.q).1 := by
    unfold outflow
    rw [S]
    simp only [tot_append]
    rw [S2 _ _ _ (Or.inl rfl), S2 _ _ _ (Or.inl rfl), S2 _ _ _ (Or.inl rfl), S2 _ _ _ (Or.inr (by omega)), S1,
      sub_add_cancel]
    have a1 : ¬ i - 1 - (x.g.r0 : Int) - 1 = i - 1 - x.g.r0 := by omega
    have a2 : ¬ k - (x.g.z0 : Int) - 1 = k - x.g.z0 := by omega
    have a3 : ¬ k - (x.g.z0 : Int) = k - x.g.z0 + 1 := by omega
    have a4 : ¬ i - 1 - (x.g.r0 : Int) = i - 1 - x.g.r0 + 1 := by omega
    simp [tot_cons, tot_nil, Op.val, a1, a2, a3, a4]
  rw [O, R1] at N
  push_cast at N
  have W : (((i : K) - 1 + 1 / 2) * x.g.dr) ^ 2 - ((i : K) * x.g.dr - x.g.dr / 2) ^ 2 = 0 := by ring
  rw [W, hr] at N
  have q0 : p.q / x.dt ≠ 0 := div_ne_zero hq dt.ne'
  have w0 : (((k : K) + 1) * x.g.dz - p.zOld) / x.g.dz ≠ 0 := by
    rw [hk]
    exact (div_pos (sub_pos.mpr fz'.2) dz).ne'
  have f0 : ((((i : K) - 1 + 1 / 2) * x.g.dr) ^ 2 - (((i : K) + 1) * x.g.dr - x.g.dr / 2) ^ 2) /
      (2 * (((i : K) + 1) * x.g.dr) * x.g.dr) ≠ 0 := by
    have e3 : (((i : K) - 1 + 1 / 2) * x.g.dr) ^ 2 - (((i : K) + 1) * x.g.dr - x.g.dr / 2) ^ 2 =
        -(2 * (i : K) * x.g.dr ^ 2) := by ring
    rw [e3]
    exact div_ne_zero (neg_ne_zero.mpr (by positivity)) (by positivity)
  have := mul_ne_zero (mul_ne_zero dt.ne' q0) (mul_ne_zero f0 w0)
  apply this
  simp only [zero_div, zero_mul, zero_sub, sub_self] at N
  linear_combination N

/-- C18: a move over two or more cells along the axis is dropped without any message. -/
theorem C18_jump_dropped (x : Ctx K) (hx : x.Good) (p : Part K) (hb : p.Bound x.g)
    (hr : ⌊p.rOld / x.g.dr⌋ - 1 ≤ ⌊p.r / x.g.dr⌋ ∧ ⌊p.r / x.g.dr⌋ ≤ ⌊p.rOld / x.g.dr⌋ + 1)
    (hz : ⌊p.z / x.g.dz⌋ + 2 ≤ ⌊p.zOld / x.g.dz⌋ ∨ ⌊p.zOld / x.g.dz⌋ + 2 ≤ ⌊p.z / x.g.dz⌋)
    (hz31 : -2 ^ 31 ≤ ⌊p.zOld / x.g.dz⌋ ∧ ⌊p.zOld / x.g.dz⌋ < 2 ^ 31)
    (hl : x.mnzl ≤ |p.r - p.rOld| ∧ x.mnzl ≤ |p.z - p.zOld|) (m : Mem K) : rzParticle x p m = .ok m := by
  have dr := hx.geo.dr
  have dz := hx.geo.dz
  obtain ⟨h1, h2, h3, h4⟩ := bound_cells hx.geo hb
  have g1 := hx.geo.nr
  unfold rzParticle rzOps
  rw [cellNumber_eq (rfl : ⌊p.rOld / x.g.dr⌋ = _) (by omega) (by omega), Res.ok_bind,
    cellNumber_eq (rfl : ⌊p.zOld / x.g.dz⌋ = _) (by omega) (by omega), Res.ok_bind]
  dsimp only
  rw [hb.cellR, hb.cellZ, if_neg (floor_cell dr p.rOld).2.ne, if_neg (floor_cell dz p.zOld).2.ne,
    if_neg (floor_cell dr p.r).2.ne, if_neg (floor_cell dz p.z).2.ne, if_neg (by omega),
    if_neg (fun h => h.elim (not_lt.mpr hl.1) (not_lt.mpr hl.2)), Res.ok_bind]
  have e : switchOps x p ⌊p.r / x.g.dr⌋ ⌊p.z / x.g.dz⌋ ⌊p.rOld / x.g.dr⌋ ⌊p.zOld / x.g.dz⌋ = [] := by
    unfold switchOps
    dsimp only
    split_ifs <;> first | rfl | omega
  rw [e]
  rfl

/-- C18 fails: motion exactly along the radius over a border is wrong unless the radial cell size is 1
(`r0 * r0 / n * dr` in place of `r0 * r0 / (n * dr)`). -/
theorem C18_radial_fails (x : Ctx K) (hx : x.Good) (p : Part K) (hb : p.Bound x.g)
    (hi : ⌊p.r / x.g.dr⌋ = ⌊p.rOld / x.g.dr⌋ + 1) (hz : p.z = p.zOld) (hl : x.mnzl ≤ |p.r - p.rOld|)
    (hq : p.q ≠ 0) (hdr : x.g.dr ≠ 1) (m : Mem K) :
    ∃ m', rzParticle x p m = .ok m' ∧
      ¬ Continuity x.pi x.dt x.g p.q p.r p.z p.rOld p.zOld (fun c i k => m' c i k - m c i k) := by
  have mn := hx.mnzl
  have dr := hx.geo.dr
  have dz := hx.geo.dz
  have dt := hx.dt
  have pi := hx.pi
  obtain ⟨h1, h2, h3, h4⟩ := bound_cells hx.geo hb
  have fr := floor_cell dr p.r
  have fz := floor_cell dz p.z
  have fr' := floor_cell dr p.rOld
  have hn : p.NearCell x.g := by unfold Part.NearCell; rw [hz]; omega
  have z2 : |p.z - p.zOld| < x.mnzl := by rw [hz, sub_self, abs_zero]; exact mn
  have e := rzOps_eq x hx p hb hn
  rw [if_pos (Or.inr z2), strictMotion_eq x hx p hb hn, if_neg (fun h => absurd h.1 (not_lt.mpr hl)),
    if_neg (not_lt.mpr hl), if_pos z2] at e
  obtain ⟨j, hj⟩ : ∃ j, j = ⌊p.rOld / x.g.dr⌋ := ⟨_, rfl⟩
  rw [← hj] at e hi h1 fr'
  generalize ⌊p.r / x.g.dr⌋ = i at *
  generalize ⌊p.z / x.g.dz⌋ = k at *
  subst hi
  have inc := radial_inc x p.r p.z p.rOld p.q (i := j + 1) (j := j) (k := k) h3 h4
  obtain ⟨m', em, v⟩ := runOps_inc x.g _ inc m
  refine ⟨m', by unfold rzParticle; rw [e, Res.ok_bind]; exact em, ?_⟩
  intro C
  have E : (fun c i k => m' c i k - m c i k) = tot (strictRadial x p.r p.z p.rOld (j + 1) j k p.q) := by
    funext c i k; rw [v]; ring
  rw [E] at C
  have j0 : (0 : K) ≤ (j : K) := by exact_mod_cast h1
  push_cast at fr
  have b1 : InR x.g (((j : K) + 1) * x.g.dr) j := ⟨by nlinarith, le_rfl⟩
  have b2 : InR x.g (((j : K) + 1) * x.g.dr) (j + 1) := ⟨by push_cast; exact le_rfl, by push_cast; nlinarith⟩
  have bp : 0 < ((j : K) + 1) * x.g.dr := by positivity
  have zk : InZ x.g p.z k := ⟨fz.1, fz.2.le⟩
  have A := radial_fine x hx { p with r := ((j : K) + 1) * x.g.dr } (i := j) (k := k) (by unfold Room; omega) hz.symm
    (.mk' hb.rOldPos ⟨fr'.1, fr'.2.le⟩ (by show InZ x.g p.zOld k; rw [← hz]; exact zk)) (.mk' bp b1 zk)
  have B := radial_fine x hx { p with rOld := ((j : K) + 1) * x.g.dr } (i := j + 1) (k := k) (by unfold Room; omega) hz.symm
    (.mk' bp b2 (by show InZ x.g p.zOld k; rw [← hz]; exact zk))
    (.mk' hb.rpos ⟨by push_cast; exact fr.1, by push_cast; exact fr.2.le⟩ zk)
  have D := ((A.cont).append (r0 := p.rOld) (z0 := p.zOld) (by
    have := B.cont
    dsimp only at this ⊢
    rw [← hz] at this
    exact this)) (j + 1 - x.g.r0) (k - x.g.z0) (by omega)
  have C' := C (j + 1 - x.g.r0) (k - x.g.z0) (by omega)
  dsimp only at D
  rw [C'] at D
  have D := mul_left_cancel₀ (neg_ne_zero.mpr dt.ne') D
  have c1 : ¬ j - (x.g.r0 : Int) = j + 1 - x.g.r0 := by omega
  have c2 : ¬ j + 1 - (x.g.r0 : Int) = j - x.g.r0 := by omega
  have c3 : ¬ k - (x.g.z0 : Int) = k - x.g.z0 + 1 := by omega
  have c4 : j + 1 - (x.g.r0 : Int) - 1 = j - x.g.r0 := by omega
  unfold outflow at D
  simp only [tot_append] at D
  unfold strictRadial at D
  dsimp only at D
  rw [if_neg (by omega), if_pos (by omega), if_pos (by omega), if_pos (by omega), c4] at D
  simp only [tot_cons, tot_nil, Op.val, c1, c2, c3, true_and, false_and, and_true, and_false, if_true, if_false, add_zero,
    zero_add, reduceCtorEq, mul_zero, sub_zero, sub_add_cancel] at D
  have c5 : j + 1 - 1 = j := by omega
  rw [c5] at D
  have lp : ((k : K) + 1) * x.g.dz - p.z ≠ 0 := (sub_pos.mpr fz.2).ne'
  have half : ((j + 1 : Int) : K) - 1/2 = (j : K) + 1/2 := by push_cast; ring
  have m1 : ((j + 1 : Int) : K) * x.g.dr = ((j : K) + 1) * x.g.dr := by push_cast; ring
  rw [half, m1] at D
  have D := sub_left_injective D
  have fp : faceR x.pi x.g (j + 1) ≠ 0 := by
    rw [faceR_eq _ _ hx.geo (by omega)]
    push_cast
    positivity
  have D := mul_right_cancel₀ lp (mul_left_cancel₀ fp D)
  have dp : densStrict x p.q ((((j + 1 : Int) : K) + 1/2) * x.g.dr) ≠ 0 := by
    unfold densStrict
    push_cast
    refine div_ne_zero hq ?_
    positivity
  have D := mul_left_cancel₀ dp D
  unfold radialBracket radialBracket2 at D
  rw [m1] at D
  push_cast at D
  have jp : (j : K) + 1 ≠ 0 := by positivity
  have w : (((j : K) + 1 + 1/2) * x.g.dr) * (((j : K) + 1 + 1/2) * x.g.dr) / ((j : K) + 1) * x.g.dr =
      (((j : K) + 1 + 1/2) * x.g.dr) * (((j : K) + 1 + 1/2) * x.g.dr) / (((j : K) + 1) * x.g.dr) := by
    have e4 : 4 * ((j : K) + 1) * x.g.dr = 4 * (((j : K) + 1) * x.g.dr) := by ring
    rw [e4] at D
    linarith
  have np : 0 < (((j : K) + 1 + 1/2) * x.g.dr) * (((j : K) + 1 + 1/2) * x.g.dr) := by positivity
  generalize (((j : K) + 1 + 1/2) * x.g.dr) * (((j : K) + 1 + 1/2) * x.g.dr) = y at w np
  field_simp at w
  have : x.g.dr ^ 2 = 1 := by linear_combination w
  have : (x.g.dr - 1) * (x.g.dr + 1) = 0 := by linear_combination this
  rcases mul_eq_zero.mp this with h | h
  · exact hdr (by linarith)
  · linarith

/-! ### C19 -/

/-- C19, the part that holds: a particle that does not move exactly along the axis adds a fixed amount
to whatever the grids hold.  Missing: motion exactly along the axis (fails, `C19_axial_erases`). -/
theorem C19_adds_partial (x : Ctx K) (hx : x.Good) (p : Part K) (hb : p.Bound x.g) (hn : p.NearCell x.g)
    (ha : x.mnzl ≤ |p.r - p.rOld| ∨ |p.z - p.zOld| < x.mnzl) :
    ∃ d : Comp → Int → Int → K, ∀ m, ∃ m', rzParticle x p m = .ok m' ∧ ∀ c i k, m' c i k = m c i k + d c i k := by
  obtain ⟨ops, e, hi⟩ := rzOps_inc x hx p hb hn ha
  refine ⟨tot ops, fun m => ?_⟩
  obtain ⟨m', em, v⟩ := runOps_inc x.g ops hi m
  exact ⟨m', by unfold rzParticle; rw [e, Res.ok_bind]; exact em, v⟩

/-- C19: for such particles the whole deposition does not depend on the order. -/
theorem C19_order_partial (x : Ctx K) (hx : x.Good) (ps ps' : List (Part K)) (hp : ps.Perm ps')
    (h : ∀ p ∈ ps, p.Bound x.g ∧ p.NearCell x.g ∧ (x.mnzl ≤ |p.r - p.rOld| ∨ |p.z - p.zOld| < x.mnzl)) (m : Mem K) :
    ∃ m', currentDistribution x ps m = .ok m' ∧ currentDistribution x ps' m = .ok m' := by
  obtain ⟨m1, e1, v1⟩ := loop_azimuthal x hx ps (fun p q => (h p q).1) (overlayClear x.g m)
  obtain ⟨m1', e1', v1'⟩ := loop_azimuthal x hx ps' (fun p q => (h p (hp.mem_iff.mpr q)).1) (overlayClear x.g m)
  obtain rfl : m1 = m1' := by
    funext c i k
    rw [v1, v1', (hp.map _).sum_eq]
  obtain ⟨m2, e2, v2⟩ := loop_deposits x ps (fun p q => rzOps_inc x hx p (h p q).1 (h p q).2.1 (h p q).2.2)
    (overlayClear x.g m1)
  obtain ⟨m2', e2', v2'⟩ := loop_deposits x ps' (fun p q => by
    have q := hp.mem_iff.mpr q
    exact rzOps_inc x hx p (h p q).1 (h p q).2.1 (h p q).2.2) (overlayClear x.g m1)
  obtain rfl : m2 = m2' := by
    funext c i k
    rw [v2, v2', (hp.map _).sum_eq]
  refine ⟨m2, ?_, ?_⟩
  · unfold currentDistribution azimuthal
    rw [e1, Res.ok_bind]
    exact e2
  · unfold currentDistribution azimuthal
    rw [e1', Res.ok_bind]
    exact e2'

theorem strictAxial_form (x : Ctx K) (rN zN zO q : K) {i k l : Int}
    (di : (x.g.r0 : Int) ≤ i ∧ i < (x.g.r0 : Int) + x.g.nr) (dk : (x.g.z0 : Int) ≤ k ∧ k < (x.g.z0 : Int) + x.g.nz) :
    ∃ rest, strictAxial x rN zN zO i k l q =
        .set .jr (i - x.g.r0) (k - x.g.z0) 0 :: .set .jr (i - x.g.r0) (k - x.g.z0 + 1) 0 :: rest ∧
      (∀ o ∈ rest, o.Inc x.g) ∧ ∀ u v, tot rest .jr u v = 0 := by
  unfold strictAxial
  dsimp only
  simp only [List.cons_append, List.nil_append]
  split_ifs
  all_goals refine ⟨_, rfl, ?_, fun u v => by simp [tot_cons, tot_nil, Op.val]⟩
  all_goals intro o ho
  all_goals simp only [List.mem_cons, List.not_mem_nil, or_false] at ho
  all_goals first
    | exact ho.elim
    | (rcases ho with rfl | rfl | rfl | rfl <;> (unfold Op.Inc insideG; dsimp only; omega))

/-- C19 fails: a particle moving along the axis wipes out the radial current of its cell, whatever
other particles deposited there. -/
theorem C19_axial_erases (x : Ctx K) (hx : x.Good) (p : Part K) (hb : p.Bound x.g) (hn : p.NearCell x.g)
    (hr : |p.r - p.rOld| < x.mnzl) (hz : x.mnzl ≤ |p.z - p.zOld|) (m : Mem K) :
    ∃ m', rzParticle x p m = .ok m' ∧
      m' .jr (⌊p.r / x.g.dr⌋ - x.g.r0) (⌊p.z / x.g.dz⌋ - x.g.z0) = 0 ∧
      m' .jr (⌊p.r / x.g.dr⌋ - x.g.r0) (⌊p.z / x.g.dz⌋ - x.g.z0 + 1) = 0 := by
  obtain ⟨h1, h2, h3, h4⟩ := bound_cells hx.geo hb
  have i1 : insideG x.g (⌊p.r / x.g.dr⌋ - x.g.r0) (⌊p.z / x.g.dz⌋ - x.g.z0) := by unfold insideG; omega
  have i2 : insideG x.g (⌊p.r / x.g.dr⌋ - x.g.r0) (⌊p.z / x.g.dz⌋ - x.g.z0 + 1) := by unfold insideG; omega
  obtain ⟨rest, e, inc, z⟩ := strictAxial_form x p.r p.z p.zOld p.q (l := ⌊p.zOld / x.g.dz⌋) h3 h4
  obtain ⟨m', em, v⟩ := runOps_inc x.g rest inc (put (put m .jr (⌊p.r / x.g.dr⌋ - x.g.r0) (⌊p.z / x.g.dz⌋ - x.g.z0) 0)
    .jr (⌊p.r / x.g.dr⌋ - x.g.r0) (⌊p.z / x.g.dz⌋ - x.g.z0 + 1) 0)
  refine ⟨m', ?_, ?_, ?_⟩
  · unfold rzParticle
    rw [rzOps_eq x hx p hb hn, if_pos (Or.inl hr), strictMotion_eq x hx p hb hn, Res.ok_bind,
      if_neg (fun h => absurd h.2 (not_lt.mpr hz)), if_pos hr, e]
    unfold runOps at em ⊢
    rw [loop_cons]
    show ((if insideG x.g _ _ then _ else _) >>= _) = _
    rw [if_pos i1, Res.ok_bind, loop_cons]
    show ((if insideG x.g _ _ then _ else _) >>= _) = _
    rw [if_pos i2, Res.ok_bind]
    exact em
  · rw [v, z, add_zero]
    unfold put
    simp
  · rw [v, z, add_zero]
    unfold put
    simp

/-- C19 fails: the radial-axial pass clears the overlay once more, so the azimuthal current that the
azimuthal pass has put into the overlay cells (the part meant for the neighbour domain) is always
lost. -/
theorem C19_overlay_lost (x : Ctx K) (ps : List (Part K)) {m m' : Mem K}
    (h : currentDistribution x ps m = .ok m') (i k : Int) (hin : insideG x.g i k)
    (ho : ¬ ((0 ≤ i ∧ i < x.g.nr) ∧ (0 ≤ k ∧ k < x.g.nz))) : m' .jp i k = 0 := by
  unfold currentDistribution at h
  cases h1 : azimuthal x ps m with
  | fatal => rw [h1] at h; cases h
  | ub => rw [h1] at h; cases h
  | ok m1 =>
  rw [h1, Res.ok_bind] at h
  unfold rz at h
  rw [rz_other x .jp (by decide) (by decide) ps _ _ h i k]
  unfold overlayClear
  rw [if_pos ⟨Or.inr (Or.inl rfl), hin, ho⟩]

/-! ### Gauss's law over a whole step -/

/-- Field solver and deposition work on the same domain with the same time step. -/
structure Same (pr : Par K) (x : Ctx K) : Prop where
  dr : x.g.dr = pr.dr
  dz : x.g.dz = pr.dz
  r0 : x.g.r0 = pr.r0
  nr : x.g.nr = pr.nr
  nz : x.g.nz = pr.nz
  dt : x.dt = pr.dt

/-- Divergence of the current is its outflow over the volume of the cell of the node. -/
theorem divElectric_outflow (pr : Par K) (x : Ctx K) (hx : x.Good) (hs : Same pr x) (J : Mem K) (i k : Int) (hi : 1 ≤ i) :
    divElectric pr (J .jr) (J .jz) i k = outflow x.pi x.g J i k / nodeRing x.pi x.g.dr x.g.dz ((x.g.r0 : K) + i) := by
  have dr := hx.geo.dr
  have dz := hx.geo.dz
  have pi := hx.pi
  have hi0 : (1 : K) ≤ (i : K) := by exact_mod_cast hi
  have hr0 : (0 : K) ≤ (x.g.r0 : K) := by positivity
  unfold outflow
  rw [faceR_eq _ _ hx.geo (by omega), faceR_eq _ _ hx.geo (by omega), faceZ_pos _ _ hx.geo (by omega)]
  unfold divElectric divergence nodeRing
  rw [← hs.dr, ← hs.dz, ← hs.r0]
  push_cast
  have : 0 < (x.g.r0 : K) + i := by positivity
  have e : (((x.g.r0 : K) + i + 1 / 2) * x.g.dr) ^ 2 - (((x.g.r0 : K) + i - 1 / 2) * x.g.dr) ^ 2 =
      2 * ((x.g.r0 : K) + i) * x.g.dr ^ 2 := by ring
  rw [e, add_comm (i : K) (x.g.r0 : K)]
  field_simp
  ring

/-- Charge density of the particles at a node: charge in the cell of the node over its volume. -/
def rhoNew (x : Ctx K) (ps : List (Part K)) (i k : Int) : K :=
  (ps.map (fun p => nodeCharge x.g p.q p.r p.z (i + x.g.r0) (k + x.g.z0))).sum /
    nodeRing x.pi x.g.dr x.g.dz ((x.g.r0 : K) + i)
/-- The same before the move. -/
def rhoOld (x : Ctx K) (ps : List (Part K)) (i k : Int) : K :=
  (ps.map (fun p => nodeCharge x.g p.q p.rOld p.zOld (i + x.g.r0) (k + x.g.z0))).sum /
    nodeRing x.pi x.g.dr x.g.dz ((x.g.r0 : K) + i)

/-- C54: when the particles have moved, their currents have been deposited and the electric field has
been advanced, the defect of Gauss's law `div D - rho` at every inner node is what it was before. -/
theorem C54_gauss_kept_partial (pr : Par K) (hpr : pr.Good) (x : Ctx K) (hx : x.Good) (hs : Same pr x)
    (ps : List (Part K)) (hps : ∀ p ∈ ps, p.Bound x.g ∧ p.NearCell x.g ∧ p.General x.g x.mnzl) (m : Mem K)
    (hm : ∀ a b, m .eps a b ≠ 0 ∧ m .sig a b = 0) :
    ∃ m1 m2, currentDistribution x ps (resetCurrent x.g m) = .ok m1 ∧ calcE pr m1 = .ok m2 ∧
      ∀ i k : Int, 1 ≤ i → 1 ≤ k → i + (if pr.walls.rr = true then 1 else 0) < pr.nr →
        k + (if pr.walls.zz = true then 1 else 0) < pr.nz →
        divElectric pr (displacement m2 .er) (displacement m2 .ez) i k - rhoNew x ps i k =
          divElectric pr (displacement m .er) (displacement m .ez) i k - rhoOld x ps i k := by
  obtain ⟨m1, e1, keep, cont⟩ := C18_run_partial x hx ps hps m
  obtain ⟨m2, e2⟩ := calcE_defined pr hpr m1
  refine ⟨m1, m2, e1, e2, ?_⟩
  intro i k hi hk hi' hk'
  have hin : i < pr.nr := by split at hi' <;> omega
  have hkn : k < pr.nz := by split at hk' <;> omega
  have keep' : ∀ c, c ≠ .jr → c ≠ .jp → c ≠ .jz → m1 c = m c := by
    intro c h1 h2 h3; funext i k; exact keep c i k h1 h2 h3
  have G := C16_gauss pr hpr e2 i k hi hk hi' hk' (fun a b _ => by
    rw [keep' .eps (by decide) (by decide) (by decide), keep' .sig (by decide) (by decide) (by decide)]; exact hm a b)
  have d1 : displacement m1 .er = displacement m .er := by
    funext a b
    unfold displacement
    rw [keep' .eps (by decide) (by decide) (by decide), keep' .er (by decide) (by decide) (by decide)]
  have d2 : displacement m1 .ez = displacement m .ez := by
    funext a b
    unfold displacement
    rw [keep' .eps (by decide) (by decide) (by decide), keep' .ez (by decide) (by decide) (by decide)]
  have C := cont i k (by omega) (by omega) (by rw [hs.nr]; omega) (by omega) (by rw [hs.nz]; omega)
  rw [G, d1, d2, divElectric_outflow pr x hx hs m1 i k hi, ← hs.dt]
  unfold rhoNew rhoOld
  have : x.dt * (outflow x.pi x.g m1 i k / nodeRing x.pi x.g.dr x.g.dz ((x.g.r0 : K) + i)) =
      (x.dt * outflow x.pi x.g m1 i k) / nodeRing x.pi x.g.dr x.g.dz ((x.g.r0 : K) + i) := by ring
  rw [this, ← neg_neg (x.dt * outflow x.pi x.g m1 i k), ← neg_mul, ← C]
  ring

/-! ### Concrete cases -/

/-- Four by four cells of size 1. -/
def exCtx : Ctx ℚ := ⟨⟨1, 1, 0, 0, 4, 4⟩, 1, 22/7, 1/1000, fun y => y - 1⟩
/-- Moves inside the cell (1, 0). -/
def exIn : Part ℚ := ⟨7/4, 3/4, 5/4, 1/4, 1, 1, 0, 3⟩
/-- Moves from the cell (1, 0) over two borders to (2, 1). -/
def exCross : Part ℚ := ⟨9/4, 3/2, 5/4, 1/2, 1, 2, 1, 3⟩
/-- Moves from (1, 0) to (2, 1) through the corner. -/
def exCorner : Part ℚ := ⟨5/2, 3/2, 3/2, 1/2, 1, 2, 1, 3⟩
/-- Moves along the axis in the cell (1, 0). -/
def exAxial : Part ℚ := ⟨3/2, 3/4, 3/2, 1/4, 1, 1, 0, 3⟩
/-- Moves along the radius in the cell (1, 0). -/
def exRadial : Part ℚ := ⟨7/4, 1/2, 5/4, 1/2, 1, 1, 0, 3⟩
/-- Starts on the border `r = 3` and moves to the cell (2, 0). -/
def exBorder : Part ℚ := ⟨5/2, 3/4, 3, 1/4, 1, 2, 0, 3⟩
/-- Jumps over two cells along the axis. -/
def exJump : Part ℚ := ⟨7/4, 11/4, 5/4, 1/4, 1, 1, 2, 3⟩
/-- Rotates in the last row. -/
def exEdge : Part ℚ := ⟨7/2, 1/2, 13/4, 1/4, 1, 3, 0, 3⟩

theorem exCtx_good : exCtx.Good := ⟨⟨by decide +kernel, by decide +kernel, by decide, by decide⟩, by decide +kernel,
  by decide +kernel, by decide +kernel⟩

theorem exIn_bound : exIn.Bound exCtx.g := ⟨⟨by decide +kernel, by decide +kernel, by decide +kernel, by decide +kernel⟩,
  by decide +kernel, by decide +kernel, by decide +kernel, by decide +kernel⟩
theorem exCross_bound : exCross.Bound exCtx.g := ⟨⟨by decide +kernel, by decide +kernel, by decide +kernel, by decide +kernel⟩,
  by decide +kernel, by decide +kernel, by decide +kernel, by decide +kernel⟩
theorem exCorner_bound : exCorner.Bound exCtx.g := ⟨⟨by decide +kernel, by decide +kernel, by decide +kernel, by decide +kernel⟩,
  by decide +kernel, by decide +kernel, by decide +kernel, by decide +kernel⟩
theorem exAxial_bound : exAxial.Bound exCtx.g := ⟨⟨by decide +kernel, by decide +kernel, by decide +kernel, by decide +kernel⟩,
  by decide +kernel, by decide +kernel, by decide +kernel, by decide +kernel⟩
theorem exRadial_bound : exRadial.Bound exCtx.g := ⟨⟨by decide +kernel, by decide +kernel, by decide +kernel, by decide +kernel⟩,
  by decide +kernel, by decide +kernel, by decide +kernel, by decide +kernel⟩
theorem exBorder_bound : exBorder.Bound exCtx.g := ⟨⟨by decide +kernel, by decide +kernel, by decide +kernel, by decide +kernel⟩,
  by decide +kernel, by decide +kernel, by decide +kernel, by decide +kernel⟩
theorem exJump_bound : exJump.Bound exCtx.g := ⟨⟨by decide +kernel, by decide +kernel, by decide +kernel, by decide +kernel⟩,
  by decide +kernel, by decide +kernel, by decide +kernel, by decide +kernel⟩

instance (g : Geom ℚ) (p : Part ℚ) : Decidable (p.NearCell g) := by unfold Part.NearCell; infer_instance
instance (g : Geom ℚ) (p : Part ℚ) : Decidable (p.SameCell g) := by unfold Part.SameCell; infer_instance
instance (e : ℚ) (p : Part ℚ) : Decidable (p.Plain e) := by unfold Part.Plain; infer_instance

-- C17: a path inside a cell, one along the radius, one along the axis; none of them deposits nothing.
example : exIn.SameCell exCtx.g ∧ exIn.Plain exCtx.mnzl := by decide +kernel
example : exRadial.SameCell exCtx.g ∧ exRadial.Plain exCtx.mnzl := by decide +kernel
example : exAxial.SameCell exCtx.g ∧ exAxial.Plain exCtx.mnzl := by decide +kernel
example : nodeCharge exCtx.g exIn.q exIn.r exIn.z 1 0 ≠ nodeCharge exCtx.g exIn.q exIn.rOld exIn.zOld 1 0 := by
  decide +kernel

theorem int_between {n : Int} {a : ℚ} (k : Int) (h : (n : ℚ) = a) (h1 : (k : ℚ) - 1 < a) (h2 : a < k + 1) : n = k := by
  rw [← h] at h1 h2
  have h1 : ((k - 1 : Int) : ℚ) < (n : ℚ) := by push_cast; exact h1
  have h2 : (n : ℚ) < ((k + 1 : Int) : ℚ) := by push_cast; exact h2
  have h1 := Int.cast_lt.mp h1
  have h2 := Int.cast_lt.mp h2
  omega

/-- The only crossings of the path of `exCross`: half-way and at three quarters. -/
theorem exCross_cuts {t : ℚ} (h0 : 0 ≤ t) (h1 : t ≤ 1) :
    (OnR exCtx.g (exCross.rAt t) ↔ t = 3/4) ∧ (OnZ exCtx.g (exCross.zAt t) ↔ t = 1/2) := by
  have er : exCross.rAt t = 5/4 + t := by norm_num [Part.rAt, exCross]
  have ez : exCross.zAt t = 1/2 + t := by norm_num [Part.zAt, exCross]
  have d1 : exCtx.g.dr = 1 := rfl
  have d2 : exCtx.g.dz = 1 := rfl
  unfold OnR OnZ
  rw [er, ez, d1, d2]
  constructor
  · constructor
    · rintro ⟨n, h⟩
      rw [mul_one] at h
      have := int_between 2 h.symm (by push_cast; linarith) (by push_cast; linarith)
      subst this
      push_cast at h
      linarith
    · rintro rfl
      exact ⟨2, by norm_num⟩
  · constructor
    · rintro ⟨n, h⟩
      rw [mul_one] at h
      have := int_between 1 h.symm (by push_cast; linarith) (by push_cast; linarith)
      subst this
      push_cast at h
      linarith
    · rintro rfl
      exact ⟨1, by norm_num⟩

-- C18: a path over two borders in general position.
theorem exCross_general : exCross.General exCtx.g exCtx.mnzl := by
  refine ⟨⟨?_, ?_⟩, ?_, ?_⟩
  · have := (exCross_cuts (t := 0) le_rfl zero_le_one).1
    rw [rAt_zero] at this
    rw [this]; norm_num
  · have := (exCross_cuts (t := 0) le_rfl zero_le_one).2
    rw [zAt_zero] at this
    rw [this]; norm_num
  · intro t h0 h1
    rw [(exCross_cuts h0 h1).1, (exCross_cuts h0 h1).2]
    rintro ⟨rfl, h⟩
    norm_num at h
  · intro s t h0 h1 h2
    rw [(exCross_cuts h0 (h1.le.trans h2)).1, (exCross_cuts h0 (h1.le.trans h2)).2,
      (exCross_cuts (h0.trans h1.le) h2).1, (exCross_cuts (h0.trans h1.le) h2).2]
    have er : exCross.rAt t - exCross.rAt s = t - s := by norm_num [Part.rAt, exCross]
    have ez : exCross.zAt t - exCross.zAt s = t - s := by norm_num [Part.zAt, exCross]
    rw [er, ez, abs_of_pos (sub_pos.mpr h1)]
    have : exCtx.mnzl = 1/1000 := rfl
    rw [this]
    rintro (rfl | rfl | rfl) (rfl | rfl | rfl) <;> first | (norm_num; done) | (exfalso; revert h1; norm_num; done)

example : exCross.NearCell exCtx.g := by decide +kernel
example (m : Mem ℚ) : ∃ m', currentDistribution exCtx [exCross, exCross] (resetCurrent exCtx.g m) = .ok m' := by
  obtain ⟨m', h, _⟩ := C18_run_partial exCtx exCtx_good [exCross, exCross]
    (by simp only [List.mem_cons, List.not_mem_nil, or_false, or_self, forall_eq]
        exact ⟨exCross_bound, by decide +kernel, exCross_general⟩) m
  exact ⟨m', h⟩

-- C18 fails: the corner, the start on a border, the jump.
example (m : Mem ℚ) : rzParticle exCtx exCorner m = .ok m :=
  (C18_corner_fails exCtx exCtx_good exCorner exCorner_bound (by decide +kernel) (by decide +kernel)
    (by decide +kernel) (by decide +kernel) (1/2) (by decide +kernel) (by decide +kernel) m).1
example (m : Mem ℚ) := C18_border_start_fails exCtx exCtx_good exBorder exBorder_bound (by decide +kernel)
  (by decide +kernel) (by decide +kernel) (by decide +kernel) (by decide +kernel) m
example (m : Mem ℚ) : rzParticle exCtx exJump m = .ok m :=
  C18_jump_dropped exCtx exCtx_good exJump exJump_bound (by decide +kernel) (by decide +kernel) (by decide +kernel)
    (by decide +kernel) m

/-- The same domain with cells of half the size, and a radial move over a border in it. -/
def exCtx2 : Ctx ℚ := ⟨⟨1/2, 1, 0, 0, 4, 4⟩, 1, 22/7, 1/1000, fun y => y - 1⟩
def exRadial2 : Part ℚ := ⟨5/4, 1/2, 3/4, 1/2, 1, 2, 0, 3⟩
example (m : Mem ℚ) := C18_radial_fails exCtx2 ⟨⟨by decide +kernel, by decide +kernel, by decide, by decide⟩, by decide +kernel,
    by decide +kernel, by decide +kernel⟩ exRadial2
  ⟨⟨by decide +kernel, by decide +kernel, by decide +kernel, by decide +kernel⟩,
    by decide +kernel, by decide +kernel, by decide +kernel, by decide +kernel⟩
  (by decide +kernel) (by decide +kernel) (by decide +kernel) (by decide +kernel) (by decide +kernel) m

/-- C19 fails: two particles, the result depends on their order. -/
theorem C19_order_matters :
    (currentDistribution exCtx [exRadial, exAxial] (fun _ _ _ => 0) >>= fun m => .ok (m .jr 1 0)) = .ok 0 ∧
    (currentDistribution exCtx [exAxial, exRadial] (fun _ _ _ => 0) >>= fun m => .ok (m .jr 1 0)) ≠ .ok 0 := by
  decide +kernel

-- The azimuthal pass alone does put current into the overlay.
example : (azimuthal exCtx [exEdge] (fun _ _ _ => 0) >>= fun m => .ok (m .jp 4 0)) ≠ .ok 0 := by decide +kernel
example : (currentDistribution exCtx [exEdge] (fun _ _ _ => 0) >>= fun m => .ok (m .jp 4 0)) = .ok 0 := by decide +kernel

-- C19, the positive part: particles with motion in both directions.
example : exIn.NearCell exCtx.g ∧ (exCtx.mnzl ≤ |exIn.r - exIn.rOld| ∨ |exIn.z - exIn.zOld| < exCtx.mnzl) := by
  decide +kernel
example : exRadial.NearCell exCtx.g ∧
    (exCtx.mnzl ≤ |exRadial.r - exRadial.rOld| ∨ |exRadial.z - exRadial.zOld| < exCtx.mnzl) := by decide +kernel

/-- Field solver of the example domain; some electric field to start with. -/
def exPr : Par ℚ := ⟨1, 1, 1, 1, 0, 4, 4, ⟨true, true, true, true⟩⟩
def exMem : Mem ℚ
  | .eps, _, _ => 2
  | .er, i, k => i * k
  | .ez, i, k => i - k
  | .hp, i, k => i + 2 * k
  | _, _, _ => 0

-- C54: two particles crossing cell borders and some field.
example : ∃ m1 m2, currentDistribution exCtx [exCross, exCross] (resetCurrent exCtx.g exMem) = .ok m1 ∧
    calcE exPr m1 = .ok m2 ∧
    divElectric exPr (displacement m2 .er) (displacement m2 .ez) 2 1 - rhoNew exCtx [exCross, exCross] 2 1 =
      divElectric exPr (displacement exMem .er) (displacement exMem .ez) 2 1 - rhoOld exCtx [exCross, exCross] 2 1 := by
  obtain ⟨m1, m2, h1, h2, h⟩ := C54_gauss_kept_partial exPr
    ⟨by norm_num [exPr], by norm_num [exPr], by norm_num [exPr], by norm_num [exPr], by decide, by decide,
      by decide, by decide, by decide, by decide, by decide⟩ exCtx exCtx_good
    ⟨rfl, rfl, rfl, rfl, rfl, rfl⟩ [exCross, exCross]
    (by simp only [List.mem_cons, List.not_mem_nil, or_false, or_self, forall_eq]
        exact ⟨exCross_bound, by decide +kernel, exCross_general⟩) exMem
    (fun a b => ⟨by norm_num [exMem], rfl⟩)
  exact ⟨m1, m2, h1, h2, h 2 1 (by decide) (by decide) (by decide) (by decide)⟩
example : rhoNew exCtx [exCross, exCross] 2 1 ≠ rhoOld exCtx [exCross, exCross] 2 1 := by decide +kernel

end VB
end Pico
