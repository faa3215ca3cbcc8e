import Verif.Lemmas.CurrentVB

set_option linter.unusedSimpArgs false
set_option linter.unusedVariables false
set_option linter.unusedSectionVars false

namespace Pico
namespace VB

open Yee

variable {K : Type _} [Field K] [LinearOrder K] [IsStrictOrderedRing K] [FloorRing K]

/-! ### Pieces of a path -/

theorem lin_mem {l h u D s m t : K} (hs : l ≤ u + s * D ∧ u + s * D ≤ h) (ht : l ≤ u + t * D ∧ u + t * D ≤ h)
    (h1 : s ≤ m) (h2 : m ≤ t) : l ≤ u + m * D ∧ u + m * D ≤ h := by
  rcases le_total 0 D with hD | hD
  · exact ⟨by nlinarith [mul_le_mul_of_nonneg_right h1 hD], by nlinarith [mul_le_mul_of_nonneg_right h2 hD]⟩
  · exact ⟨by nlinarith [mul_le_mul_of_nonpos_right h2 hD], by nlinarith [mul_le_mul_of_nonpos_right h1 hD]⟩

theorem Continuity.refl (pi dt : K) (g : Geom K) (q r z : K) {l : List (Op K)} (hl : l = []) :
    Continuity pi dt g q r z r z (tot l) := by
  subst hl
  intro a b _
  unfold outflow
  simp only [tot_nil]
  ring

/-- Good pieces: continuity, and only increments inside the grid. -/
structure Fine (x : Ctx K) (q r' z' r z : K) (ops : List (Op K)) : Prop where
  cont : Continuity x.pi x.dt x.g q r' z' r z (tot ops)
  axial : axialTotal x.pi x.g (tot ops) = q * (z' - z) / (x.g.dz * x.dt)
  inc : ∀ o ∈ ops, o.Inc x.g

theorem Fine.append {x : Ctx K} {q r2 z2 r1 z1 r0 z0 : K} {l l' : List (Op K)}
    (h : Fine x q r1 z1 r0 z0 l) (h' : Fine x q r2 z2 r1 z1 l') : Fine x q r2 z2 r0 z0 (l ++ l') :=
  ⟨h.cont.append h'.cont, by
    have e : tot (l ++ l') = fun c i k => tot l c i k + tot l' c i k := by
      funext c i k; exact tot_append l l' c i k
    rw [e, axialTotal_add, h.axial, h'.axial]
    ring, fun o ho => (List.mem_append.mp ho).elim (h.inc o) (h'.inc o)⟩

/-- Cells that the grids of the domain can take a deposit from. -/
def Room (g : Geom K) (i k : Int) : Prop :=
  0 ≤ i ∧ (g.r0 : Int) - 2 ≤ i ∧ i ≤ (g.r0 : Int) + g.nr ∧ (g.z0 : Int) - 2 ≤ k ∧ k ≤ (g.z0 : Int) + g.nz

/-- The piece of the path of `p` between the fractions `s` and `t`, inside the closed cell. -/
theorem piece (x : Ctx K) (hx : x.Good) (p : Part K) {s t : K} {i k : Int} (hc : Room x.g i k)
    (hs : InCell x.g (p.rAt s) (p.zAt s) i k) (ht : InCell x.g (p.rAt t) (p.zAt t) i k)
    (hl : s = t ∨ Long x (p.rAt t - p.rAt s) (p.zAt t - p.zAt s)) :
    Fine x p.q (p.rAt t) (p.zAt t) (p.rAt s) (p.zAt s)
      (simple x (p.rAt t) (p.zAt t) (p.rAt s) (p.zAt s) i k p.q) := by
  obtain ⟨c0, c1, c2, c3, c4⟩ := hc
  have inc := simple_inc x (r := p.rAt s) (z := p.zAt s) (r' := p.rAt t) (z' := p.zAt t) p.q
    (by omega : -2 ≤ i - (x.g.r0 : Int)) (by omega) (by omega : -2 ≤ k - (x.g.z0 : Int)) (by omega)
  rcases hl with rfl | hl
  · have e : simple x (p.rAt s) (p.zAt s) (p.rAt s) (p.zAt s) i k p.q = [] := by
      unfold simple
      rw [if_pos]
      left
      rw [sub_self, abs_zero]
      exact hx.mnzl
    refine ⟨Continuity.refl _ _ _ _ _ _ e, ?_, inc⟩
    rw [e, axialTotal_zero _ _ _ (fun _ _ => rfl)]
    simp
  · obtain ⟨A, z1, z2, Jz, ZZ⟩ := simple_cont x hx p.q c0 hs ht hl
    exact ⟨A, by rw [cell_axial _ _ (by omega) (by omega) (by omega) (by omega) Jz, ZZ], inc⟩

theorem rAt_zero (p : Part K) : p.rAt 0 = p.rOld := by unfold Part.rAt; ring
theorem zAt_zero (p : Part K) : p.zAt 0 = p.zOld := by unfold Part.zAt; ring
theorem rAt_one (p : Part K) : p.rAt 1 = p.r := by unfold Part.rAt; ring
theorem zAt_one (p : Part K) : p.zAt 1 = p.z := by unfold Part.zAt; ring

/-- Two pieces. -/
theorem two (x : Ctx K) (hx : x.Good) (p : Part K) (hp : p.General x.g x.mnzl) {t : K} {i0 k0 i1 k1 : Int}
    (c0 : Room x.g i0 k0) (c1 : Room x.g i1 k1) (t0 : 0 < t) (t1 : t ≤ 1)
    (cut : OnR x.g (p.rAt t) ∨ OnZ x.g (p.zAt t))
    (h0 : InCell x.g p.rOld p.zOld i0 k0) (h1 : InCell x.g (p.rAt t) (p.zAt t) i0 k0)
    (h2 : InCell x.g (p.rAt t) (p.zAt t) i1 k1) (h3 : InCell x.g p.r p.z i1 k1) :
    Fine x p.q p.r p.z p.rOld p.zOld
      (simple x (p.rAt t) (p.zAt t) p.rOld p.zOld i0 k0 p.q ++ simple x p.r p.z (p.rAt t) (p.zAt t) i1 k1 p.q) := by
  have A := piece x hx p (s := 0) (t := t) c0 (by rw [rAt_zero, zAt_zero]; exact h0) h1
    (Or.inr (hp.apart 0 t le_rfl t0 t1 (Or.inl rfl) (Or.inr cut)))
  have B := piece x hx p (s := t) (t := 1) c1 h2 (by rw [rAt_one, zAt_one]; exact h3)
    (t1.eq_or_lt.imp id (fun h => hp.apart t 1 t0.le h le_rfl (Or.inr cut) (Or.inl rfl)))
  rw [rAt_zero, zAt_zero] at A
  rw [rAt_one, zAt_one] at B
  exact A.append B

/-- Three pieces. -/
theorem three (x : Ctx K) (hx : x.Good) (p : Part K) (hp : p.General x.g x.mnzl) {s t : K}
    {i0 k0 i1 k1 i2 k2 : Int} (c0 : Room x.g i0 k0) (c1 : Room x.g i1 k1) (c2 : Room x.g i2 k2)
    (s0 : 0 < s) (st : s < t) (t1 : t ≤ 1)
    (cuts : OnR x.g (p.rAt s) ∨ OnZ x.g (p.zAt s)) (cutt : OnR x.g (p.rAt t) ∨ OnZ x.g (p.zAt t))
    (h0 : InCell x.g p.rOld p.zOld i0 k0) (h1 : InCell x.g (p.rAt s) (p.zAt s) i0 k0)
    (h2 : InCell x.g (p.rAt s) (p.zAt s) i1 k1) (h3 : InCell x.g (p.rAt t) (p.zAt t) i1 k1)
    (h4 : InCell x.g (p.rAt t) (p.zAt t) i2 k2) (h5 : InCell x.g p.r p.z i2 k2) :
    Fine x p.q p.r p.z p.rOld p.zOld
      (simple x (p.rAt s) (p.zAt s) p.rOld p.zOld i0 k0 p.q ++
        simple x (p.rAt t) (p.zAt t) (p.rAt s) (p.zAt s) i1 k1 p.q ++
        simple x p.r p.z (p.rAt t) (p.zAt t) i2 k2 p.q) := by
  have A := piece x hx p (s := 0) (t := s) c0 (by rw [rAt_zero, zAt_zero]; exact h0) h1
    (Or.inr (hp.apart 0 s le_rfl s0 (st.le.trans t1) (Or.inl rfl) (Or.inr cuts)))
  have B := piece x hx p (s := s) (t := t) c1 h2 h3
    (Or.inr (hp.apart s t s0.le st t1 (Or.inr cuts) (Or.inr cutt)))
  have C := piece x hx p (s := t) (t := 1) c2 h4 (by rw [rAt_one, zAt_one]; exact h5)
    (t1.eq_or_lt.imp id (fun h => hp.apart t 1 (s0.trans st).le h le_rfl (Or.inr cutt) (Or.inl rfl)))
  rw [rAt_zero, zAt_zero] at A
  rw [rAt_one, zAt_one] at C
  exact (A.append B).append C

/-- Where a segment meets a border. -/
theorem meet {u v b : K} (h : (u < b ∧ b ≤ v) ∨ (v ≤ b ∧ b < u)) :
    0 < (b - u) / (v - u) ∧ (b - u) / (v - u) ≤ 1 ∧ u + (b - u) / (v - u) * (v - u) = b := by
  rcases h with ⟨h1, h2⟩ | ⟨h1, h2⟩
  · have : 0 < v - u := by linarith
    refine ⟨div_pos (by linarith) this, (div_le_one this).mpr (by linarith), ?_⟩
    field_simp; ring
  · have : v - u < 0 := by linarith
    refine ⟨div_pos_of_neg_of_neg (by linarith) this, (div_le_one_of_neg this).mpr (by linarith), ?_⟩
    have := this.ne
    field_simp; ring

theorem floor_cell {d : K} (hd : 0 < d) (a : K) : (⌊a / d⌋ : K) * d ≤ a ∧ a < ((⌊a / d⌋ : K) + 1) * d :=
  ⟨(le_div_iff₀ hd).mp (Int.floor_le _), (div_lt_iff₀ hd).mp (Int.lt_floor_add_one _)⟩

/-- Closed cell of positions, radial and axial part. -/
def InR (g : Geom K) (r : K) (i : Int) : Prop := (i : K) * g.dr ≤ r ∧ r ≤ ((i : K) + 1) * g.dr
def InZ (g : Geom K) (z : K) (k : Int) : Prop := (k : K) * g.dz ≤ z ∧ z ≤ ((k : K) + 1) * g.dz

theorem rAt_mem {g : Geom K} {p : Part K} {i : Int} {s t m : K} (hs : InR g (p.rAt s) i) (ht : InR g (p.rAt t) i)
    (h1 : s ≤ m) (h2 : m ≤ t) : InR g (p.rAt m) i := lin_mem hs ht h1 h2

theorem zAt_mem {g : Geom K} {p : Part K} {k : Int} {s t m : K} (hs : InZ g (p.zAt s) k) (ht : InZ g (p.zAt t) k)
    (h1 : s ≤ m) (h2 : m ≤ t) : InZ g (p.zAt m) k := lin_mem hs ht h1 h2

theorem rAt_pos {p : Part K} (h0 : 0 < p.rOld) (h1 : 0 < p.r) {t : K} (t0 : 0 ≤ t) (t1 : t ≤ 1) : 0 < p.rAt t := by
  unfold Part.rAt
  rcases t1.eq_or_lt with rfl | t1
  · linarith
  · nlinarith [mul_pos h0 (sub_pos.mpr t1), mul_nonneg t0 h1.le]

theorem InCell.mk' {g : Geom K} {r z : K} {i k : Int} (h0 : 0 < r) (h1 : InR g r i) (h2 : InZ g z k) :
    InCell g r z i k := ⟨h0, h1.1, h1.2, h2.1, h2.2⟩

section cross
variable (x : Ctx K) (hx : x.Good) (p : Part K) (hp : p.General x.g x.mnzl) (r0 : 0 < p.rOld) (r1 : 0 < p.r)
include hx hp r0 r1

/-- One radial border `b` crossed. -/
theorem oneR {i j k : Int} (ci : Room x.g i k) (cj : Room x.g j k) {b : K} (hb : OnR x.g b)
    (ho : InR x.g p.rOld j) (hn : InR x.g p.r i) (bo : InR x.g b j) (bn : InR x.g b i)
    (zo : InZ x.g p.zOld k) (zn : InZ x.g p.z k)
    (hm : (p.rOld < b ∧ b ≤ p.r) ∨ (p.r ≤ b ∧ b < p.rOld)) (zb : K)
    (ez : zb = p.zAt ((b - p.rOld) / (p.r - p.rOld))) :
    Fine x p.q p.r p.z p.rOld p.zOld (simple x b zb p.rOld p.zOld j k p.q ++ simple x p.r p.z b zb i k p.q) := by
  obtain ⟨t0, t1, e⟩ := meet hm
  have e' : b = p.rAt ((b - p.rOld) / (p.r - p.rOld)) := e.symm
  have zi : InZ x.g (p.zAt ((b - p.rOld) / (p.r - p.rOld))) k :=
    zAt_mem (s := 0) (t := 1) (by rw [zAt_zero]; exact zo) (by rw [zAt_one]; exact zn) t0.le t1
  generalize ht : (b - p.rOld) / (p.r - p.rOld) = t at *
  subst ez
  rw [e'] at hb bo bn ⊢
  have hpos := rAt_pos r0 r1 t0.le t1
  exact two x hx p hp cj ci t0 t1 (Or.inl hb) (.mk' r0 ho zo) (.mk' hpos bo zi) (.mk' hpos bn zi) (.mk' r1 hn zn)

/-- One axial border `b` crossed. -/
theorem oneZ {i k l : Int} (ck : Room x.g i k) (cl : Room x.g i l) {b : K} (hb : OnZ x.g b)
    (ho : InZ x.g p.zOld l) (hn : InZ x.g p.z k) (bo : InZ x.g b l) (bn : InZ x.g b k)
    (ro : InR x.g p.rOld i) (rn : InR x.g p.r i)
    (hm : (p.zOld < b ∧ b ≤ p.z) ∨ (p.z ≤ b ∧ b < p.zOld)) (rb : K)
    (er : rb = p.rAt ((b - p.zOld) / (p.z - p.zOld))) :
    Fine x p.q p.r p.z p.rOld p.zOld (simple x rb b p.rOld p.zOld i l p.q ++ simple x p.r p.z rb b i k p.q) := by
  obtain ⟨t0, t1, e⟩ := meet hm
  have e' : b = p.zAt ((b - p.zOld) / (p.z - p.zOld)) := e.symm
  have ri : InR x.g (p.rAt ((b - p.zOld) / (p.z - p.zOld))) i :=
    rAt_mem (s := 0) (t := 1) (by rw [rAt_zero]; exact ro) (by rw [rAt_one]; exact rn) t0.le t1
  generalize ht : (b - p.zOld) / (p.z - p.zOld) = t at *
  subst er
  rw [e'] at hb bo bn ⊢
  have hpos := rAt_pos r0 r1 t0.le t1
  exact two x hx p hp cl ck t0 t1 (Or.inr hb) (.mk' r0 ro ho) (.mk' hpos ri bo) (.mk' hpos ri bn) (.mk' r1 rn hn)

/-- A radial and an axial border crossed, the radial one first. -/
theorem bothR {i j k l : Int} (c0 : Room x.g j l) (c1 : Room x.g i l) (c2 : Room x.g i k) {b c tr tz : K}
    (hb : OnR x.g b) (hc : OnZ x.g c) (ho : InR x.g p.rOld j) (hn : InR x.g p.r i) (bo : InR x.g b j) (bn : InR x.g b i)
    (zo : InZ x.g p.zOld l) (zn : InZ x.g p.z k) (co : InZ x.g c l) (cn : InZ x.g c k)
    (t0 : 0 < tr) (tt : tr < tz) (t1 : tz ≤ 1) (eb : p.rAt tr = b) (ec : p.zAt tz = c) :
    Fine x p.q p.r p.z p.rOld p.zOld (simple x b (p.zAt tr) p.rOld p.zOld j l p.q ++
      simple x (p.rAt tz) c b (p.zAt tr) i l p.q ++ simple x p.r p.z (p.rAt tz) c i k p.q) := by
  subst eb; subst ec
  have zi : InZ x.g (p.zAt tr) l := zAt_mem (s := 0) (t := tz) (by rw [zAt_zero]; exact zo) co t0.le tt.le
  have ri : InR x.g (p.rAt tz) i := rAt_mem (s := tr) (t := 1) bn (by rw [rAt_one]; exact hn) tt.le t1
  have p1 := rAt_pos r0 r1 t0.le (tt.le.trans t1)
  have p2 := rAt_pos r0 r1 (t0.trans tt).le t1
  exact three x hx p hp c0 c1 c2 t0 tt t1 (Or.inl hb) (Or.inr hc) (.mk' r0 ho zo) (.mk' p1 bo zi) (.mk' p1 bn zi)
    (.mk' p2 ri co) (.mk' p2 ri cn) (.mk' r1 hn zn)

/-- A radial and an axial border crossed, the axial one first. -/
theorem bothZ {i j k l : Int} (c0 : Room x.g j l) (c1 : Room x.g j k) (c2 : Room x.g i k) {b c tr tz : K}
    (hb : OnR x.g b) (hc : OnZ x.g c) (ho : InR x.g p.rOld j) (hn : InR x.g p.r i) (bo : InR x.g b j) (bn : InR x.g b i)
    (zo : InZ x.g p.zOld l) (zn : InZ x.g p.z k) (co : InZ x.g c l) (cn : InZ x.g c k)
    (t0 : 0 < tz) (tt : tz < tr) (t1 : tr ≤ 1) (eb : p.rAt tr = b) (ec : p.zAt tz = c) :
    Fine x p.q p.r p.z p.rOld p.zOld (simple x (p.rAt tz) c p.rOld p.zOld j l p.q ++
      simple x b (p.zAt tr) (p.rAt tz) c j k p.q ++ simple x p.r p.z b (p.zAt tr) i k p.q) := by
  subst eb; subst ec
  have zi : InZ x.g (p.zAt tr) k := zAt_mem (s := tz) (t := 1) cn (by rw [zAt_one]; exact zn) tt.le t1
  have ri : InR x.g (p.rAt tz) j := rAt_mem (s := 0) (t := tr) (by rw [rAt_zero]; exact ho) bo t0.le tt.le
  have p1 := rAt_pos r0 r1 t0.le (tt.le.trans t1)
  have p2 := rAt_pos r0 r1 (t0.trans tt).le t1
  exact three x hx p hp c0 c1 c2 t0 tt t1 (Or.inr hc) (Or.inl hb) (.mk' r0 ho zo) (.mk' p1 ri co) (.mk' p1 ri cn)
    (.mk' p2 bo zi) (.mk' p2 bn zi) (.mk' r1 hn zn)

end cross

set_option maxHeartbeats 2000000 in
/-- The switch over the kinds of motion, for a path in general position. -/
theorem switch_fine (x : Ctx K) (hx : x.Good) (p : Part K) (hp : p.General x.g x.mnzl) (r0 : 0 < p.rOld)
    (r1 : 0 < p.r) {i k j l : Int} (hj : 0 ≤ j) (hi : 0 ≤ i)
    (ri : (i : K) * x.g.dr ≤ p.r ∧ p.r < ((i : K) + 1) * x.g.dr)
    (rj : (j : K) * x.g.dr ≤ p.rOld ∧ p.rOld < ((j : K) + 1) * x.g.dr)
    (zk : (k : K) * x.g.dz ≤ p.z ∧ p.z < ((k : K) + 1) * x.g.dz)
    (zl : (l : K) * x.g.dz ≤ p.zOld ∧ p.zOld < ((l : K) + 1) * x.g.dz)
    (di : (x.g.r0 : Int) ≤ i ∧ i < (x.g.r0 : Int) + x.g.nr) (dk : (x.g.z0 : Int) ≤ k ∧ k < (x.g.z0 : Int) + x.g.nz)
    (nij : j - 1 ≤ i ∧ i ≤ j + 1) (nkl : l - 1 ≤ k ∧ k ≤ l + 1) :
    Fine x p.q p.r p.z p.rOld p.zOld (switchOps x p i k j l) := by
  have long := hp.apart 0 1 le_rfl one_pos le_rfl (Or.inl rfl) (Or.inl rfl)
  rw [rAt_zero, zAt_zero, rAt_one, zAt_one] at long
  have mn := hx.mnzl
  have hD : p.r - p.rOld ≠ 0 := by
    intro e; have := long.1; rw [e, abs_zero] at this; linarith
  have hE : p.z - p.zOld ≠ 0 := by
    intro e; have := long.2; rw [e, abs_zero] at this; linarith
  have hD' : p.rOld - p.r ≠ 0 := by intro e; apply hD; linarith
  have hE' : p.zOld - p.z ≠ 0 := by intro e; apply hE; linarith
  have dr := hx.geo.dr
  have dz := hx.geo.dz
  have sj : (j : K) * x.g.dr < p.rOld := lt_of_le_of_ne rj.1 (fun e => hp.start.1 ⟨j, e.symm⟩)
  have sl : (l : K) * x.g.dz < p.zOld := lt_of_le_of_ne zl.1 (fun e => hp.start.2 ⟨l, e.symm⟩)
  have Ri : InR x.g p.r i := ⟨ri.1, ri.2.le⟩
  have Rj : InR x.g p.rOld j := ⟨rj.1, rj.2.le⟩
  have Zk : InZ x.g p.z k := ⟨zk.1, zk.2.le⟩
  have Zl : InZ x.g p.zOld l := ⟨zl.1, zl.2.le⟩
  have room : ∀ a b : Int, 0 ≤ a → i - 1 ≤ a → a ≤ i + 1 → k - 1 ≤ b → b ≤ k + 1 → Room x.g a b := by
    intro a b h1 h2 h3 h4 h5
    unfold Room
    omega
  have inR1 : ∀ a : Int, InR x.g (((a : K)) * x.g.dr) a := fun a => ⟨le_rfl, by nlinarith⟩
  have inR2 : ∀ a : Int, InR x.g (((a : K) + 1) * x.g.dr) a := fun a => ⟨by nlinarith, le_rfl⟩
  have inR3 : ∀ a : Int, InR x.g (((a : K)) * x.g.dr) (a - 1) := fun a => by
    have := inR2 (a - 1); push_cast at this; rw [sub_add_cancel] at this; exact this
  have inR4 : ∀ a : Int, InR x.g (((a : K) + 1) * x.g.dr) (a + 1) := fun a => by
    have := inR1 (a + 1); push_cast at this; exact this
  have inZ1 : ∀ a : Int, InZ x.g (((a : K)) * x.g.dz) a := fun a => ⟨le_rfl, by nlinarith⟩
  have inZ2 : ∀ a : Int, InZ x.g (((a : K) + 1) * x.g.dz) a := fun a => ⟨by nlinarith, le_rfl⟩
  have inZ3 : ∀ a : Int, InZ x.g (((a : K)) * x.g.dz) (a - 1) := fun a => by
    have := inZ2 (a - 1); push_cast at this; rw [sub_add_cancel] at this; exact this
  have inZ4 : ∀ a : Int, InZ x.g (((a : K) + 1) * x.g.dz) (a + 1) := fun a => by
    have := inZ1 (a + 1); push_cast at this; exact this
  have onR1 : ∀ a : Int, OnR x.g ((a : K) * x.g.dr) := fun a => ⟨a, rfl⟩
  have onR2 : ∀ a : Int, OnR x.g (((a : K) + 1) * x.g.dr) := fun a => ⟨a + 1, by push_cast; rfl⟩
  have onZ1 : ∀ a : Int, OnZ x.g ((a : K) * x.g.dz) := fun a => ⟨a, rfl⟩
  have onZ2 : ∀ a : Int, OnZ x.g (((a : K) + 1) * x.g.dz) := fun a => ⟨a + 1, by push_cast; rfl⟩
  -- both borders, in the order of crossing
  have both : ∀ b c, OnR x.g b → OnZ x.g c → InR x.g b j → InR x.g b i → InZ x.g c l → InZ x.g c k →
      ((p.rOld < b ∧ b ≤ p.r) ∨ (p.r ≤ b ∧ b < p.rOld)) →
      ((p.zOld < c ∧ c ≤ p.z) ∨ (p.z ≤ c ∧ c < p.zOld)) →
      i - 1 ≤ j → j ≤ i + 1 → k - 1 ≤ l → l ≤ k + 1 →
      ∀ z1 r2, z1 = p.zAt ((b - p.rOld) / (p.r - p.rOld)) → r2 = p.rAt ((c - p.zOld) / (p.z - p.zOld)) →
      ((0 < p.z - p.zOld ∧ z1 < c ∨ p.z - p.zOld < 0 ∧ c < z1) →
        Fine x p.q p.r p.z p.rOld p.zOld (simple x b z1 p.rOld p.zOld j l p.q ++
          simple x r2 c b z1 i l p.q ++ simple x p.r p.z r2 c i k p.q)) ∧
      ((0 < p.z - p.zOld ∧ c < z1 ∨ p.z - p.zOld < 0 ∧ z1 < c) →
        Fine x p.q p.r p.z p.rOld p.zOld (simple x r2 c p.rOld p.zOld j l p.q ++
          simple x b z1 r2 c j k p.q ++ simple x p.r p.z b z1 i k p.q)) ∧ z1 ≠ c := by
    intro b c hb hc bj bi cl ck mb mc h1 h2 h3 h4 z1 r2 e1 e2
    obtain ⟨b0, b1, eb⟩ := meet mb
    obtain ⟨c0, c1, ec⟩ := meet mc
    have eb' : p.rAt ((b - p.rOld) / (p.r - p.rOld)) = b := eb
    have ec' : p.zAt ((c - p.zOld) / (p.z - p.zOld)) = c := ec
    generalize (b - p.rOld) / (p.r - p.rOld) = tr at *
    generalize (c - p.zOld) / (p.z - p.zOld) = tz at *
    subst e1; subst e2
    refine ⟨fun h => ?_, fun h => ?_, fun h => ?_⟩
    · refine bothR x hx p hp r0 r1 (room _ _ hj (by omega) (by omega) (by omega) (by omega))
        (room _ _ hi (by omega) (by omega) (by omega) (by omega)) (room _ _ hi (by omega) (by omega) (by omega) (by omega))
        hb hc Rj Ri bj bi Zl Zk cl ck b0 ?_ c1 eb' ec'
      rw [← ec'] at h
      unfold Part.zAt at h
      rcases h with ⟨h, h'⟩ | ⟨h, h'⟩
      · exact lt_of_mul_lt_mul_right (by linarith : tr * (p.z - p.zOld) < tz * (p.z - p.zOld)) h.le
      · by_contra hh
        nlinarith [mul_le_mul_of_nonpos_right (not_lt.mp hh) h.le]
    · refine bothZ x hx p hp r0 r1 (room _ _ hj (by omega) (by omega) (by omega) (by omega))
        (room _ _ hj (by omega) (by omega) (by omega) (by omega)) (room _ _ hi (by omega) (by omega) (by omega) (by omega))
        hb hc Rj Ri bj bi Zl Zk cl ck c0 ?_ b1 eb' ec'
      rw [← ec'] at h
      unfold Part.zAt at h
      rcases h with ⟨h, h'⟩ | ⟨h, h'⟩
      · exact lt_of_mul_lt_mul_right (by linarith : tz * (p.z - p.zOld) < tr * (p.z - p.zOld)) h.le
      · by_contra hh
        nlinarith [mul_le_mul_of_nonpos_right (not_lt.mp hh) h.le]
    · exact hp.corner tr b0.le b1 ⟨by rw [eb']; exact hb, by rw [h]; exact hc⟩
  unfold switchOps
  dsimp only
  obtain rfl | rfl | rfl : i = j ∨ i = j + 1 ∨ j = i + 1 := by omega
  · obtain rfl | rfl | rfl : k = l ∨ k = l + 1 ∨ l = k + 1 := by omega
    · rw [if_pos (by omega)]
      have A := piece x hx p (s := 0) (t := 1) (room i k hi (by omega) (by omega) (by omega) (by omega))
        (by rw [rAt_zero, zAt_zero]; exact .mk' r0 Rj Zl) (by rw [rAt_one, zAt_one]; exact .mk' r1 Ri Zk)
        (Or.inr (by rw [rAt_zero, zAt_zero, rAt_one, zAt_one]; exact long))
      rw [rAt_zero, zAt_zero, rAt_one, zAt_one] at A
      exact A
    · rw [if_neg (by omega), if_pos (by omega), if_neg (by omega), if_pos (by omega)]
      unfold crossZ
      dsimp only
      have c : p.zOld < (((l + 1 : Int) : K)) * x.g.dz := by push_cast; exact zl.2
      rw [if_pos c]
      refine oneZ x hx p hp r0 r1 (room _ _ hi (by omega) (by omega) (by omega) (by omega))
        (room _ _ hi (by omega) (by omega) (by omega) (by omega)) (onZ1 _) (by rw [add_sub_cancel_right]; exact Zl) Zk
        (inZ3 _) (inZ1 _) Rj Ri (Or.inl ⟨c, zk.1⟩) _ ?_
      unfold Part.rAt
      field_simp
    · rw [if_neg (by omega), if_pos (by omega), if_neg (by omega), if_pos (by omega)]
      unfold crossZ
      dsimp only
      have c : ¬ p.zOld < (k : K) * x.g.dz := by push_cast at sl; nlinarith
      rw [if_neg c]
      refine oneZ x hx p hp r0 r1 (room _ _ hi (by omega) (by omega) (by omega) (by omega))
        (room _ _ hi (by omega) (by omega) (by omega) (by omega)) (onZ2 _) Zl Zk
        (inZ4 _) (inZ2 _) Rj Ri (Or.inr ⟨zk.2.le, by push_cast at sl; exact sl⟩) _ ?_
      unfold Part.rAt
      field_simp
      ring
  · have crd : p.rOld < (((j + 1 : Int) : K)) * x.g.dr := by push_cast; exact rj.2
    obtain rfl | rfl | rfl : k = l ∨ k = l + 1 ∨ l = k + 1 := by omega
    · rw [if_neg (by omega), if_pos (by omega), if_pos (by omega)]
      unfold crossR
      dsimp only
      have c : ¬ p.rOld > ((((j + 1 : Int) : K)) + 1) * x.g.dr := by push_cast; nlinarith
      rw [if_neg c]
      refine oneR x hx p hp r0 r1 (room _ _ hi (by omega) (by omega) (by omega) (by omega))
        (room _ _ (by omega) (by omega) (by omega) (by omega) (by omega)) (onR1 _) (by rw [add_sub_cancel_right]; exact Rj) Ri
        (inR3 _) (inR1 _) Zl Zk (Or.inl ⟨crd, ri.1⟩) _ ?_
      unfold Part.zAt
      field_simp
    · rw [if_neg (by omega), if_neg (by omega), if_pos (by omega), if_pos (by omega), if_pos (by omega)]
      have cz : p.zOld < (((l + 1 : Int) : K)) * x.g.dz := by push_cast; exact zl.2
      have up : 0 < p.z - p.zOld := by have := zk.1; linarith
      obtain ⟨A, B, C⟩ := both _ _ (onR1 (j + 1)) (onZ1 (l + 1)) (by have := inR3 (j + 1); rwa [add_sub_cancel_right] at this) (inR1 _)
        (by have := inZ3 (l + 1); rwa [add_sub_cancel_right] at this) (inZ1 _) (Or.inl ⟨crd, ri.1⟩) (Or.inl ⟨cz, zk.1⟩)
        (by omega) (by omega) (by omega) (by omega)
        (p.zOld + ((((j + 1 : Int) : K)) * x.g.dr - p.rOld) / ((p.r - p.rOld) / (p.z - p.zOld)))
        (p.rOld + ((((l + 1 : Int) : K)) * x.g.dz - p.zOld) * ((p.r - p.rOld) / (p.z - p.zOld)))
        (by unfold Part.zAt; field_simp) (by unfold Part.rAt; field_simp)
      unfold crossUpRight
      dsimp only
      simp only [add_sub_cancel_right]
      split
      · rename_i h
        exact A (Or.inl ⟨up, h⟩)
      · rename_i h
        rw [if_pos (lt_of_le_of_ne (not_lt.mp h) (Ne.symm C))]
        exact B (Or.inl ⟨up, lt_of_le_of_ne (not_lt.mp h) (Ne.symm C)⟩)
    · rw [if_neg (by omega), if_neg (by omega), if_pos (by omega), if_pos (by omega), if_neg (by omega)]
      have cz : ((k : K) + 1) * x.g.dz < p.zOld := by push_cast at sl; exact sl
      have up : p.z - p.zOld < 0 := by have := zk.2; linarith
      obtain ⟨A, B, C⟩ := both _ _ (onR1 (j + 1)) (onZ2 k) (by have := inR3 (j + 1); rwa [add_sub_cancel_right] at this) (inR1 _)
        (inZ4 _) (inZ2 _) (Or.inl ⟨crd, ri.1⟩) (Or.inr ⟨zk.2.le, cz⟩)
        (by omega) (by omega) (by omega) (by omega)
        (p.zOld + ((((j + 1 : Int) : K)) * x.g.dr - p.rOld) / ((p.r - p.rOld) / (p.z - p.zOld)))
        (p.rOld + -(p.zOld - ((k : K) + 1) * x.g.dz) * ((p.r - p.rOld) / (p.z - p.zOld)))
        (by unfold Part.zAt; field_simp) (by unfold Part.rAt; field_simp; ring)
      unfold crossUpLeft
      dsimp only
      simp only [add_sub_cancel_right]
      split
      · rename_i h
        exact A (Or.inr ⟨up, h⟩)
      · rename_i h
        rw [if_pos (lt_of_le_of_ne (not_lt.mp h) C)]
        exact B (Or.inr ⟨up, lt_of_le_of_ne (not_lt.mp h) C⟩)
  · have crd : ((i : K) + 1) * x.g.dr < p.rOld := by push_cast at sj; exact sj
    obtain rfl | rfl | rfl : k = l ∨ k = l + 1 ∨ l = k + 1 := by omega
    · rw [if_neg (by omega), if_pos (by omega), if_pos (by omega)]
      unfold crossR
      dsimp only
      rw [if_pos crd]
      refine oneR x hx p hp r0 r1 (room _ _ hi (by omega) (by omega) (by omega) (by omega))
        (room _ _ (by omega) (by omega) (by omega) (by omega) (by omega)) (onR2 _) Rj Ri
        (inR4 _) (inR2 _) Zl Zk (Or.inr ⟨ri.2.le, crd⟩) _ ?_
      unfold Part.zAt
      field_simp
      ring
    · rw [if_neg (by omega), if_neg (by omega), if_pos (by omega), if_neg (by omega), if_pos (by omega), if_pos (by omega)]
      have cz : p.zOld < (((l + 1 : Int) : K)) * x.g.dz := by push_cast; exact zl.2
      have up : 0 < p.z - p.zOld := by have := zk.1; linarith
      obtain ⟨A, B, C⟩ := both _ _ (onR2 i) (onZ1 (l + 1)) (inR4 _) (inR2 _)
        (by have := inZ3 (l + 1); rwa [add_sub_cancel_right] at this) (inZ1 _) (Or.inr ⟨ri.2.le, crd⟩) (Or.inl ⟨cz, zk.1⟩)
        (by omega) (by omega) (by omega) (by omega)
        (p.zOld + -(p.rOld - ((i : K) + 1) * x.g.dr) / ((p.r - p.rOld) / (p.z - p.zOld)))
        (p.rOld - -((((l + 1 : Int) : K)) * x.g.dz - p.zOld) * ((p.r - p.rOld) / (p.z - p.zOld)))
        (by unfold Part.zAt; field_simp; ring) (by unfold Part.rAt; field_simp; ring)
      unfold crossDownRight
      dsimp only
      simp only [add_sub_cancel_right]
      split
      · rename_i h
        exact A (Or.inl ⟨up, h⟩)
      · rename_i h
        rw [if_pos (lt_of_le_of_ne (not_lt.mp h) (Ne.symm C))]
        exact B (Or.inl ⟨up, lt_of_le_of_ne (not_lt.mp h) (Ne.symm C)⟩)
    · rw [if_neg (by omega), if_neg (by omega), if_pos (by omega), if_neg (by omega), if_pos (by omega), if_neg (by omega), if_pos (by omega)]
      have cz : ((k : K) + 1) * x.g.dz < p.zOld := by push_cast at sl; exact sl
      have up : p.z - p.zOld < 0 := by have := zk.2; linarith
      obtain ⟨A, B, C⟩ := both _ _ (onR2 i) (onZ2 k) (inR4 _) (inR2 _)
        (inZ4 _) (inZ2 _) (Or.inr ⟨ri.2.le, crd⟩) (Or.inr ⟨zk.2.le, cz⟩)
        (by omega) (by omega) (by omega) (by omega)
        (p.z + (((i : K) + 1) * x.g.dr - p.r) / ((p.rOld - p.r) / (p.zOld - p.z)))
        (p.r + (((k : K) + 1) * x.g.dz - p.z) * ((p.rOld - p.r) / (p.zOld - p.z)))
        (by unfold Part.zAt; field_simp; ring) (by unfold Part.rAt; field_simp; ring)
      unfold crossDownLeft
      dsimp only
      split
      · rename_i h
        exact A (Or.inr ⟨up, h⟩)
      · rename_i h
        rw [if_pos (lt_of_le_of_ne (not_lt.mp h) C)]
        exact B (Or.inr ⟨up, lt_of_le_of_ne (not_lt.mp h) C⟩)

theorem cellNumber_eq {pos dx : K} {n : Int} (h : ⌊pos / dx⌋ = n) (h1 : -2 ^ 31 ≤ n) (h2 : n < 2 ^ 31) :
    cellNumber pos dx = .ok n := by
  unfold cellNumber
  dsimp only
  rw [h, if_pos ⟨h1, h2⟩]

/-- What is known about the cell numbers of a bound particle. -/
theorem bound_cells {g : Geom K} (hg : g.Good) {p : Part K} (hb : p.Bound g) :
    0 ≤ ⌊p.rOld / g.dr⌋ ∧ 0 ≤ ⌊p.r / g.dr⌋ ∧
    ((g.r0 : Int) ≤ ⌊p.r / g.dr⌋ ∧ ⌊p.r / g.dr⌋ < (g.r0 : Int) + g.nr) ∧
    ((g.z0 : Int) ≤ ⌊p.z / g.dz⌋ ∧ ⌊p.z / g.dz⌋ < (g.z0 : Int) + g.nz) := by
  have dr := hg.dr
  have dz := hg.dz
  have hn := hb.new
  refine ⟨Int.floor_nonneg.mpr (div_nonneg hb.rOldPos.le dr.le), Int.floor_nonneg.mpr (div_nonneg hb.rpos.le dr.le),
    ⟨Int.le_floor.mpr ?_, Int.floor_lt.mpr ?_⟩, ⟨Int.le_floor.mpr ?_, Int.floor_lt.mpr ?_⟩⟩
  · rw [le_div_iff₀ dr]; exact_mod_cast hn.rlo
  · rw [div_lt_iff₀ dr]; have := hn.rhi; push_cast at this ⊢; exact this
  · rw [le_div_iff₀ dz]; exact_mod_cast hn.zlo
  · rw [div_lt_iff₀ dz]; have := hn.zhi; push_cast at this ⊢; exact this

/-- The cell numbers the deposition works with. -/
theorem rzOps_eq (x : Ctx K) (hx : x.Good) (p : Part K) (hb : p.Bound x.g) (hn : p.NearCell x.g) :
    rzOps x p = if |p.r - p.rOld| < x.mnzl ∨ |p.z - p.zOld| < x.mnzl then
      strictMotion x p.r p.z p.rOld p.zOld p.q
      else .ok (switchOps x p ⌊p.r / x.g.dr⌋ ⌊p.z / x.g.dz⌋ ⌊p.rOld / x.g.dr⌋ ⌊p.zOld / x.g.dz⌋) := by
  have dr := hx.geo.dr
  have dz := hx.geo.dz
  obtain ⟨h1, h2, h3, h4⟩ := bound_cells hx.geo hb
  have g1 := hx.geo.nr
  have g2 := hx.geo.nz
  obtain ⟨n1, n2⟩ := hn
  unfold rzOps
  rw [cellNumber_eq (rfl : ⌊p.rOld / x.g.dr⌋ = _) (by omega) (by omega), Res.ok_bind,
    cellNumber_eq (rfl : ⌊p.zOld / x.g.dz⌋ = _) (by omega) (by omega), Res.ok_bind]
  dsimp only
  rw [hb.cellR, hb.cellZ]
  have a1 := (floor_cell dr p.rOld).2.ne
  have a2 := (floor_cell dz p.zOld).2.ne
  have a3 := (floor_cell dr p.r).2.ne
  have a4 := (floor_cell dz p.z).2.ne
  rw [if_neg a1, if_neg a2, if_neg a3, if_neg a4, if_neg (by omega)]

/-- A particle in general position deposits fine pieces. -/
theorem rzOps_general (x : Ctx K) (hx : x.Good) (p : Part K) (hb : p.Bound x.g) (hn : p.NearCell x.g)
    (hp : p.General x.g x.mnzl) :
    ∃ ops, rzOps x p = .ok ops ∧ Fine x p.q p.r p.z p.rOld p.zOld ops := by
  have dr := hx.geo.dr
  have dz := hx.geo.dz
  obtain ⟨h1, h2, h3, h4⟩ := bound_cells hx.geo hb
  have long := hp.apart 0 1 le_rfl one_pos le_rfl (Or.inl rfl) (Or.inl rfl)
  rw [rAt_zero, zAt_zero, rAt_one, zAt_one] at long
  rw [rzOps_eq x hx p hb hn, if_neg (by push Not; exact long)]
  exact ⟨_, rfl, switch_fine x hx p hp hb.rOldPos hb.rpos h1 h2 (floor_cell dr _) (floor_cell dr _) (floor_cell dz _)
    (floor_cell dz _) h3 h4 hn.1 hn.2⟩

/-! ### Motion along one axis -/

theorem strictMotion_eq (x : Ctx K) (hx : x.Good) (p : Part K) (hb : p.Bound x.g) (hn : p.NearCell x.g) :
    strictMotion x p.r p.z p.rOld p.zOld p.q =
      .ok (if |p.r - p.rOld| < x.mnzl ∧ |p.z - p.zOld| < x.mnzl then []
      else if |p.r - p.rOld| < x.mnzl then
        strictAxial x p.r p.z p.zOld ⌊p.r / x.g.dr⌋ ⌊p.z / x.g.dz⌋ ⌊p.zOld / x.g.dz⌋ p.q
      else if |p.z - p.zOld| < x.mnzl then
        strictRadial x p.r p.z p.rOld ⌊p.r / x.g.dr⌋ ⌊p.rOld / x.g.dr⌋ ⌊p.z / x.g.dz⌋ p.q
      else []) := by
  obtain ⟨h1, h2, h3, h4⟩ := bound_cells hx.geo hb
  have g1 := hx.geo.nr
  have g2 := hx.geo.nz
  obtain ⟨n1, n2⟩ := hn
  unfold strictMotion
  rw [cellNumber_eq (rfl : ⌊p.r / x.g.dr⌋ = _) (by omega) (by omega), Res.ok_bind,
    cellNumber_eq (rfl : ⌊p.z / x.g.dz⌋ = _) (by omega) (by omega), Res.ok_bind,
    cellNumber_eq (rfl : ⌊p.rOld / x.g.dr⌋ = _) (by omega) (by omega), Res.ok_bind,
    cellNumber_eq (rfl : ⌊p.zOld / x.g.dz⌋ = _) (by omega) (by omega), Res.ok_bind]

/-- Radial motion inside a cell. -/
theorem radial_fine (x : Ctx K) (hx : x.Good) (p : Part K) {i k : Int} (hc : Room x.g i k) (hz : p.zOld = p.z)
    (h : InCell x.g p.rOld p.zOld i k) (h' : InCell x.g p.r p.z i k) :
    Fine x p.q p.r p.z p.rOld p.zOld (strictRadial x p.r p.z p.rOld i i k p.q) := by
  have dr := hx.geo.dr
  have dz := hx.geo.dz
  have dt := hx.dt
  have pi := hx.pi
  obtain ⟨hi, c1, c2, c3, c4⟩ := hc
  have rp := h.pos
  have rp' := h'.pos
  have hi0 : (0 : K) ≤ (i : K) := by exact_mod_cast hi
  have hp : (0 : K) < (i : K) + 1/2 := by positivity
  have e : p.rOld + (p.r - p.rOld) = p.r := by ring
  have S : strictRadial x p.r p.z p.rOld i i k p.q =
      [.inc .jr (i - x.g.r0) (k - x.g.z0) (densStrict x p.q (((i : K) + 1/2) * x.g.dr) *
          radialBracket x.g.dr (((i : K) + 1/2) * x.g.dr) (p.r - p.rOld) p.rOld * (((k : K) + 1) * x.g.dz - p.z)),
       .inc .jr (i - x.g.r0) (k - x.g.z0 + 1) (densStrict x p.q (((i : K) + 1/2) * x.g.dr) *
          radialBracket x.g.dr (((i : K) + 1/2) * x.g.dr) (p.r - p.rOld) p.rOld * (p.z - (k : K) * x.g.dz))] := by
    unfold strictRadial
    dsimp only
    rw [if_pos (by omega)]
  have inc : ∀ o ∈ strictRadial x p.r p.z p.rOld i i k p.q, o.Inc x.g := by
    intro o ho
    rw [S] at ho
    simp only [List.mem_cons, List.not_mem_nil, or_false] at ho
    rcases ho with rfl | rfl <;> (unfold Op.Inc insideG; dsimp only; omega)
  have F : faceR x.pi x.g i * (densStrict x p.q (((i : K) + 1/2) * x.g.dr) *
      radialBracket x.g.dr (((i : K) + 1/2) * x.g.dr) (p.r - p.rOld) p.rOld) =
      - p.q / (x.g.dz * x.dt) * (lowShare x.g i p.r - lowShare x.g i p.rOld) := by
    rw [faceR_eq _ _ hx.geo hi]
    unfold densStrict radialBracket lowShare
    rw [e]
    generalize (i : K) + 1/2 = n at hp ⊢
    field_simp
    ring
  rw [S] at inc ⊢
  generalize densStrict x p.q (((i : K) + 1/2) * x.g.dr) *
      radialBracket x.g.dr (((i : K) + 1/2) * x.g.dr) (p.r - p.rOld) p.rOld = w at F inc ⊢
  refine ⟨?_, by rw [axialTotal_zero _ _ _ (fun u v => by simp [tot_cons, tot_nil, Op.val]), hz]; simp, inc⟩
  refine cell_cont x hx p.q hi h h' (r1 := w * (((k : K) + 1) * x.g.dz - p.z)) (r2 := w * (p.z - (k : K) * x.g.dz))
    (z1 := 0) (z2 := 0) ?_ ?_ ?_ ?_ ?_
  · intro u v
    simp only [tot_cons, tot_nil, Op.val, true_and]
    by_cases hu : u = i - x.g.r0
    · by_cases hv : v = k - x.g.z0
      · simp [hu, hv]
      · simp [hu, hv]
    · simp [hu]
  · intro u v
    simp [tot_cons, tot_nil, Op.val]
  · rw [← mul_assoc, F, hz]
    field_simp
    ring
  · rw [← mul_assoc, F, hz]
    field_simp
    ring
  · rw [hz]
    simp

/-- Increments of axial motion at the constant radius `r` from `z` to `z'` inside a cell. -/
def axialPiece (x : Ctx K) (r z z' : K) (i k : Int) (q : K) : List (Op K) :=
  [.inc .jz (i - x.g.r0) (k - x.g.z0) (q * lowShare x.g i r / (x.dt * faceZ x.pi x.g i * x.g.dz) * (z' - z)),
   .inc .jz (i - x.g.r0 + 1) (k - x.g.z0) (q * (1 - lowShare x.g i r) / (x.dt * faceZ x.pi x.g (i + 1) * x.g.dz) * (z' - z))]

theorem faceZ_gt (pi : K) (hpi : 0 < pi) (g : Geom K) (hg : g.Good) {a : Int} (ha : 0 ≤ a) : 0 < faceZ pi g a := by
  have := hg.dr
  rcases ha.eq_or_lt with rfl | h
  · rw [faceZ_zero _ _ hg]; positivity
  · rw [faceZ_pos _ _ hg (by omega)]
    have : (0 : K) < (a : K) := by exact_mod_cast h
    positivity

theorem axialPiece_fine (x : Ctx K) (hx : x.Good) {r z z' : K} (q : K) {i k : Int} (hc : Room x.g i k)
    (h : InCell x.g r z i k) (h' : InCell x.g r z' i k) : Fine x q r z' r z (axialPiece x r z z' i k q) := by
  have dz := hx.geo.dz
  have dt := hx.dt
  obtain ⟨hi, c1, c2, c3, c4⟩ := hc
  have f1 := faceZ_gt x.pi hx.pi x.g hx.geo hi
  have f2 := faceZ_gt x.pi hx.pi x.g hx.geo (a := i + 1) (by omega)
  have inc : ∀ o ∈ axialPiece x r z z' i k q, o.Inc x.g := by
    intro o ho
    unfold axialPiece at ho
    simp only [List.mem_cons, List.not_mem_nil, or_false] at ho
    rcases ho with rfl | rfl <;> (unfold Op.Inc insideG; dsimp only; omega)
  have Jz : ∀ u v, tot (axialPiece x r z z' i k q) .jz u v = if v = k - x.g.z0 then
      (if u = i - x.g.r0 then q * lowShare x.g i r / (x.dt * faceZ x.pi x.g i * x.g.dz) * (z' - z)
        else if u = i - x.g.r0 + 1 then
          q * (1 - lowShare x.g i r) / (x.dt * faceZ x.pi x.g (i + 1) * x.g.dz) * (z' - z) else 0) else 0 := by
    intro u v
    unfold axialPiece
    simp only [tot_cons, tot_nil, Op.val, true_and]
    by_cases hu : u = i - x.g.r0
    · by_cases hv : v = k - x.g.z0
      · simp [hu, hv]
      · simp [hu, hv]
    · by_cases hv : v = k - x.g.z0
      · simp [hu, hv]
      · simp [hu, hv]
  have ZZ : faceZ x.pi x.g i * (q * lowShare x.g i r / (x.dt * faceZ x.pi x.g i * x.g.dz) * (z' - z)) +
      faceZ x.pi x.g (i + 1) * (q * (1 - lowShare x.g i r) / (x.dt * faceZ x.pi x.g (i + 1) * x.g.dz) * (z' - z)) =
      q * (z' - z) / (x.g.dz * x.dt) := by
    field_simp
    ring
  refine ⟨?_, by rw [cell_axial _ _ (by omega) (by omega) (by omega) (by omega) Jz, ZZ], inc⟩
  refine cell_cont x hx q hi h h' (r1 := 0) (r2 := 0)
    (z1 := q * lowShare x.g i r / (x.dt * faceZ x.pi x.g i * x.g.dz) * (z' - z))
    (z2 := q * (1 - lowShare x.g i r) / (x.dt * faceZ x.pi x.g (i + 1) * x.g.dz) * (z' - z)) ?_ Jz ?_ ?_ ZZ
  · intro u v
    unfold axialPiece
    simp [tot_cons, tot_nil, Op.val]
  · field_simp
    ring
  · field_simp
    ring

/-- Axial motion: two cells of radial current are set to zero, the rest are fine increments. -/
theorem axial_fine (x : Ctx K) (hx : x.Good) (p : Part K) (hr : p.rOld = p.r) (rp : 0 < p.r)
    {i k l : Int} (hi : 0 ≤ i) (di : (x.g.r0 : Int) ≤ i ∧ i < (x.g.r0 : Int) + x.g.nr)
    (dk : (x.g.z0 : Int) ≤ k ∧ k < (x.g.z0 : Int) + x.g.nz)
    (ri : InR x.g p.r i) (zk : InZ x.g p.z k) (zl : InZ x.g p.zOld l) (nkl : l - 1 ≤ k ∧ k ≤ l + 1) :
    ∃ ops, Fine x p.q p.r p.z p.rOld p.zOld ops ∧
      strictAxial x p.r p.z p.zOld i k l p.q =
        .set .jr (i - x.g.r0) (k - x.g.z0) 0 :: .set .jr (i - x.g.r0) (k - x.g.z0 + 1) 0 :: ops := by
  have dr := hx.geo.dr
  have dz := hx.geo.dz
  have dt := hx.dt
  have pi := hx.pi
  have room : ∀ b : Int, k - 1 ≤ b → b ≤ k + 1 → Room x.g i b := by
    intro b h1 h2
    unfold Room
    omega
  have hi0 : (0 : K) ≤ (i : K) := by exact_mod_cast hi
  have low : (if i = 0 then p.q / (x.dt * x.pi * x.g.dr * x.g.dr / 4) * x.pi * ((((i : K) + 1/2) * x.g.dr) * (((i : K) + 1/2) * x.g.dr)
        - (p.r - 1/2 * x.g.dr) * (p.r - 1/2 * x.g.dr)) / (2 * x.pi * p.r * x.g.dr * x.g.dz)
      else p.q / (x.dt * 2 * x.pi * (i : K) * x.g.dr * x.g.dr) * x.pi * ((((i : K) + 1/2) * x.g.dr) * (((i : K) + 1/2) * x.g.dr)
        - (p.r - 1/2 * x.g.dr) * (p.r - 1/2 * x.g.dr)) / (2 * x.pi * p.r * x.g.dr * x.g.dz)) =
      p.q * lowShare x.g i p.r / (x.dt * faceZ x.pi x.g i * x.g.dz) := by
    unfold lowShare
    split
    · rename_i h
      subst h
      rw [faceZ_zero _ _ hx.geo]
      field_simp
    · rename_i h
      rw [faceZ_pos _ _ hx.geo (by omega)]
      have : (0 : K) < (i : K) := by exact_mod_cast (by omega : 0 < i)
      field_simp
  have up : p.q / (x.dt * 2 * x.pi * ((i : K) + 1) * x.g.dr * x.g.dr) * x.pi * ((p.r + 1/2 * x.g.dr) * (p.r + 1/2 * x.g.dr)
        - (((i : K) + 1/2) * x.g.dr) * (((i : K) + 1/2) * x.g.dr)) / (2 * x.pi * p.r * x.g.dr * x.g.dz) =
      p.q * (1 - lowShare x.g i p.r) / (x.dt * faceZ x.pi x.g (i + 1) * x.g.dz) := by
    unfold lowShare
    rw [faceZ_pos _ _ hx.geo (by omega)]
    push_cast
    have : (0 : K) < (i : K) + 1 := by positivity
    field_simp
    ring
  have inZ1 : ∀ a : Int, InZ x.g (((a : K)) * x.g.dz) a := fun a => ⟨le_rfl, by nlinarith⟩
  have inZ2 : ∀ a : Int, InZ x.g (((a : K) + 1) * x.g.dz) a := fun a => ⟨by nlinarith, le_rfl⟩
  have inZ3 : ∀ a : Int, InZ x.g (((a : K)) * x.g.dz) (a - 1) := fun a => by
    have := inZ2 (a - 1); push_cast at this; rw [sub_add_cancel] at this; exact this
  have inZ4 : ∀ a : Int, InZ x.g (((a : K) + 1) * x.g.dz) (a + 1) := fun a => by
    have := inZ1 (a + 1); push_cast at this; exact this
  unfold strictAxial
  dsimp only
  rw [low, up, hr]
  obtain rfl | rfl | rfl : k = l ∨ k = l + 1 ∨ l = k + 1 := by omega
  · rw [if_pos (by omega)]
    exact ⟨_, axialPiece_fine x hx p.q (room _ (by omega) (by omega)) (.mk' rp ri zl) (.mk' rp ri zk), rfl⟩
  · rw [if_neg (by omega), if_pos (by omega)]
    have e : l + 1 - (x.g.z0 : Int) - 1 = l - x.g.z0 := by omega
    rw [e]
    have zb : InZ x.g (((l + 1 : Int) : K) * x.g.dz) l := by
      have := inZ3 (l + 1); rwa [add_sub_cancel_right] at this
    exact ⟨_, (axialPiece_fine x hx p.q (room _ (by omega) (by omega)) (.mk' rp ri zl) (.mk' rp ri zb)).append
      (axialPiece_fine x hx p.q (room _ (by omega) (by omega)) (.mk' rp ri (inZ1 (l + 1))) (.mk' rp ri zk)), rfl⟩
  · rw [if_neg (by omega), if_neg (by omega), if_pos (by omega)]
    have e : k - (x.g.z0 : Int) + 1 = (k + 1 : Int) - x.g.z0 := by omega
    refine ⟨_, (axialPiece_fine x hx p.q (room (k + 1) (by omega) (by omega)) (.mk' rp ri zl) (.mk' rp ri (inZ4 k))).append
      (axialPiece_fine x hx p.q (room k (by omega) (by omega)) (.mk' rp ri (inZ2 k)) (.mk' rp ri zk)), ?_⟩
    unfold axialPiece
    rw [e]
    rfl

end VB
end Pico
