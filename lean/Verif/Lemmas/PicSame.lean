import Verif.Spec.PicSame
import Verif.Lemmas.PicStep

/-! A divided simulation does what the undivided one does. -/

set_option linter.unusedSimpArgs false
set_option linter.unusedVariables false
set_option linter.unusedSectionVars false

namespace Pico
namespace Pic

open SMB Yee Interp

theorem whole_chamber {E : Env} (h : Chamber E) : Chamber E.whole where
  r0 := h.r0
  walls := h.walls
  div := by
    have := h.div.r1
    have := h.div.r2
    have := h.div.z1
    have := h.div.z2
    exact ⟨le_rfl, le_rfl, by show 2 * 1 ≤ E.p.nr; omega, by show 2 * 1 ≤ E.p.nz; omega, h.div.r3, h.div.z3, Nat.one_dvd _, Nat.one_dvd _, Or.inl rfl⟩
  good := h.good
  c := h.c
  cr := h.cr
  cz := h.cz
  mass := h.mass

/-! ### Fields -/

theorem low_one (n : Nat) : low n 1 0 = 0 := low_zero ..

theorem hgt_one (n : Nat) : hgt n 1 0 = n := by
  rw [hgt_const (by norm_num) (Nat.one_dvd n), Nat.div_one]

/-- The single domain of an undivided area. -/
theorem single_window {p : Par ℝ} {c : Comp} {N : Solvers ℝ} {m : Mem ℝ} (W : Windows p 1 1 c N m) {x y : Int}
    (hx : -2 ≤ x ∧ x < p.nr + 2) (hy : -2 ≤ y ∧ y < p.nz + 2) : N 0 0 c x y = m c x y := by
  have := (W 0 0 x y ⟨by norm_num, by norm_num, by rw [hgt_one]; exact hx, by rw [hgt_one]; exact hy⟩).1
    (by unfold Seam; omega)
  rw [low_one, low_one] at this
  rw [this]
  congr 1 <;> omega

theorem windows_single (p : Par ℝ) (c : Comp) (N : Solvers ℝ) : Windows p 1 1 c N (N 0 0) := by
  rintro i j x y ⟨hi, hj, _⟩
  have i0 : i = 0 := by omega
  have j0 : j = 0 := by omega
  subst i0 j0
  rw [low_one, low_one]
  refine ⟨fun _ => ?_, fun k => ?_⟩
  · congr 1 <;> omega
  · unfold Seam at k
    omega

/-- The field steps of both simulations. -/
theorem fields_same {p : Par ℝ} {domR domZ : Nat} (hd : Divided p domR domZ) (h1 : Divided p 1 1) {M N : Solvers ℝ}
    (W : ∀ c, c.isSource = false → Windows p domR domZ c M (N 0 0)) (Q : SameSources p domR domZ M (N 0 0)) :
    ∃ M1 N1 m1, solveMaxwell (domPar p domR domZ) domR domZ M = .ok M1 ∧ solveMaxwell (domPar p 1 1) 1 1 N = .ok N1 ∧
      (∀ c, c.isSource = false → Windows p domR domZ c M1 m1) ∧ (∀ c, c.isSource = false → Windows p 1 1 c N1 m1) ∧
      (∀ c, c.isSource = false → Windows p domR domZ c M1 (N1 0 0)) ∧ SameSources p domR domZ M1 (N1 0 0) := by
  have e : ∀ K : Solvers ℝ, (fun i j => setSources (K i j) (K i j)) = K := by
    intro K
    funext i j c x y
    exact ite_self _
  obtain ⟨M1, m1, a1, a2, a3, a4⟩ := C62_step p hd W (loc := M) (src := N 0 0) Q
  obtain ⟨N1, n1, b1, b2, b3, b4⟩ := C62_step p h1 (M := N) (m := N 0 0) (fun c _ => windows_single p c N) (loc := N) (src := N 0 0) (by
    rintro i j x y c _ ⟨hi, hj, _⟩
    have i0 : i = 0 := by omega
    have j0 : j = 0 := by omega
    subst i0 j0
    rw [low_one, low_one]
    congr 1 <;> omega)
  obtain rfl := Res.ok.inj (a2.symm.trans b2)
  rw [e] at a1 b1
  refine ⟨M1, N1, m1, a1, b1, a3, b3, ?_, ?_⟩
  · intro c hc i j x y ho
    obtain ⟨k1, k2⟩ := a3 c hc i j x y ho
    refine ⟨fun s => ?_, k2⟩
    rw [k1 s]
    obtain ⟨hi, hj, hx, hy⟩ := ho
    have bd := hd.bounds hi hj
    exact (single_window (b3 c hc) (by omega) (by omega)).symm
  · intro i j x y c hc ho
    rw [a4 i j c x y ho.1 ho.2.1 hc, b4 0 0 c _ _ (by norm_num) (by norm_num) hc]
    exact Q i j x y c hc ho

/-! ### Particles -/

theorem deposits_perm (E : Env) (heap : Nat → Part ℝ) {D : Doms} {ids : List Nat} (nd : ids.Nodup) (hD : ∀ i j, (D i j).map Sp.id = ids) :
    (partsOf E.domR E.domZ (fun _ _ => true) (depositsOf E heap D)).Perm
      (ids.flatMap fun id => (tagsOf E D id).map fun t => depositOf (E.charge id) (heap t)) := by
  have one : ∀ i j, depositsOf E heap D i j = ids.flatMap fun id => (SMB.parts D i j id).map fun o => depositOf (E.charge id) (heap o.tag) := by
    intro i j
    unfold depositsOf
    have h := sp_rep (D i j) (by rw [hD]; exact nd)
    rw [hD] at h
    conv_lhs => rw [h]
    rw [List.flatMap_map]
    rfl
  have e : partsOf E.domR E.domZ (fun _ _ => true) (depositsOf E heap D) =
      (allDoms (geoOf E.p E.domR E.domZ)).flatMap fun q => ids.flatMap fun id =>
        (SMB.parts D q.1 q.2 id).map fun o => depositOf (E.charge id) (heap o.tag) := by
    unfold partsOf allDoms idx2
    simp only [↓reduceIte, one, List.flatMap_assoc, List.flatMap_map]
    rw [List.range_eq_range', List.range_eq_range']
    rfl
  rw [e]
  refine (flatMap_swap _ _ _).trans ?_
  refine List.Perm.of_eq (List.flatMap_congr fun id _ => ?_)
  unfold tagsOf
  rw [List.map_flatMap]
  refine List.flatMap_congr fun q _ => ?_
  rw [List.map_map]
  rfl

/-- The geometry of a domain, as C63 has it. -/
theorem geom_dom (E : Env) (i j : Nat) : E.geom i j = domGeom E.p E.domR E.domZ i j := rfl

section
variable {E : Env} (h : Chamber E)
include h

/-- The push is the same in a domain and in the undivided area. -/
theorem push_same {M1 N1 : Solvers ℝ} {m1 : Mem ℝ} (W : ∀ c, c.isSource = false → Windows E.p E.domR E.domZ c M1 m1)
    (W1 : ∀ c, c.isSource = false → Windows E.p 1 1 c N1 m1) {i j : Nat} (hi : i < E.domR) (hj : j < E.domZ) {a : Part ℝ}
    (ha : InPlace E i j a) (hb : InPlace E.whole 0 0 a) (hs : ¬ AtSeam E.p E.domR E.domZ i j a.posR a.posZ) (id : Nat) (junk : Bool) :
    Pusher.push E.kind (E.pushPar id) junk E.e.pi (E.geom i j) (M1 i j) a.posR a.posZ (vel a) =
    Pusher.push E.kind (E.pushPar id) junk E.e.pi (E.whole.geom 0 0) (N1 0 0) a.posR a.posZ (vel a) := by
  have dr : 0 < E.p.dr := h.good.geo.dr
  have dz : 0 < E.p.dz := h.good.geo.dz
  have big : E.p.r0 + E.p.nr < 2 ^ 31 := by have := h.div.r3; rw [h.r0]; omega
  have c1 := C63_partial E.e.pi E.p dr dz big h.div W hi hj ha.dom hs
  have c2 := C63_partial E.e.pi E.p dr dz big (whole_chamber h).div W1 (i := 0) (j := 0) (by norm_num [Env.whole]) (by norm_num [Env.whole]) hb.dom
    (by unfold AtSeam Env.whole; dsimp only; omega)
  unfold Pusher.push
  rw [geom_dom, geom_dom]
  show Interp.getE _ _ _ _ _ >>= _ = Interp.getE E.e.pi (domGeom E.p 1 1 0 0) _ _ _ >>= fun e => Interp.getH E.e.pi (domGeom E.p 1 1 0 0) _ _ _ >>= _
  rw [c1.1, c1.2, ← c2.1, ← c2.2]
  rfl

theorem at_seam {i j : Nat} {r z : ℝ} (k : AtSeam E.p E.domR E.domZ i j r z) :
    (i + 1 < E.domR ∧ 0 < j ∧ ⌊r / E.p.dr⌋ + 1 = (low E.p.nr E.domR (i + 1) : Int) ∧ ⌊z / E.p.dz⌋ = (low E.p.nz E.domZ j : Int)) ∨
      (0 < i ∧ j + 1 < E.domZ ∧ ⌊r / E.p.dr⌋ = (low E.p.nr E.domR i : Int) ∧ ⌊z / E.p.dz⌋ + 1 = (low E.p.nz E.domZ (j + 1) : Int)) := by
  have e1 := low_hgt h h.div.r1 h.div.r2 i
  have e2 := low_hgt h h.div.z1 h.div.z2 j
  have e3 := h.r0
  unfold AtSeam at k
  rcases k with ⟨k1, k2, k3, k4⟩ | ⟨k1, k2, k3, k4⟩
  · left
    exact ⟨k1, k2, by omega, k4⟩
  · right
    exact ⟨k1, k2, by omega, by omega⟩

/-- A particle that does not arrive at a border of its domain does not arrive at a border of the area. -/
theorem clear_whole {i j : Nat} (hi : i < E.domR) (hj : j < E.domZ) {a : Part ℝ} {v : Vec3 ℝ} (ha : InPlace E i j a)
    (hv : v.length2 < E.c ^ 2) (k : Clear E i j a v) : Clear E.whole 0 0 a v := by
  have dr : 0 < E.p.dr := h.good.geo.dr
  have dz : 0 < E.p.dz := h.good.geo.dz
  obtain ⟨n1, n2⟩ := land_near h ha hv
  have d := ha.dom
  rw [geom_eq h] at d
  have l1 := d.rlo
  have l2 := d.zlo
  dsimp only at l1 l2
  unfold Clear
  show landR E a v ≠ (low E.p.nr 1 0 : ℝ) * E.p.dr ∧ landZ E a v ≠ (low E.p.nz 1 0 : ℝ) * E.p.dz
  rw [low_one, low_one, Nat.cast_zero, zero_mul, zero_mul]
  rw [abs_lt] at n1 n2
  have two : ∀ n d i, 1 ≤ d → 2 * d ≤ n → 0 < i → 2 ≤ low n d i := by
    intro n d i h1 h2 h3
    obtain ⟨i, rfl⟩ := Nat.exists_eq_succ_of_ne_zero h3.ne'
    have := low_step h1 h2 i
    show 2 ≤ low n d (i + 1)
    omega
  constructor
  · by_cases c : i = 0
    · have := k.1
      rw [c, low_zero, Nat.cast_zero, zero_mul] at this
      exact this
    · have := two _ _ i h.div.r1 h.div.r2 (by omega)
      have : (2 : ℝ) ≤ low E.p.nr E.domR i := by exact_mod_cast this
      have := mul_le_mul_of_nonneg_right this dr.le
      intro e
      linarith
  · by_cases c : j = 0
    · have := k.2
      rw [c, low_zero, Nat.cast_zero, zero_mul] at this
      exact this
    · have := two _ _ j h.div.z1 h.div.z2 (by omega)
      have : (2 : ℝ) ≤ low E.p.nz E.domZ j := by exact_mod_cast this
      have := mul_le_mul_of_nonneg_right this dz.le
      intro e
      linarith

theorem listed_iff {ids : List Nat} {S W : State} (A : Alive E ids S) (A1 : Alive E.whole ids W) (Q : Same E ids S W) (t id : Nat) :
    (∃ i j, i < E.domR ∧ j < E.domZ ∧ ∃ sp ∈ S.D i j, sp.id = id ∧ ∃ o ∈ sp.parts, o.tag = t) ↔
    ∃ sp ∈ W.D 0 0, sp.id = id ∧ ∃ o ∈ sp.parts, o.tag = t := by
  rw [← mem_tags (E := E)]
  have key : id ∈ ids → (t ∈ tagsOf E S.D id ↔ t ∈ tagsOf E.whole W.D id) := fun k => (Q.lists id k).mem_iff
  constructor
  · intro k
    obtain ⟨i, j, hi, hj, sp, hsp, e, _⟩ := mem_tags.mp k
    have m : id ∈ ids := by rw [← A.species i j, ← e]; exact List.mem_map_of_mem hsp
    obtain ⟨i, j, hi, hj, r⟩ := mem_tags.mp ((key m).mp k)
    have i0 : i = 0 := Nat.lt_one_iff.mp hi
    have j0 : j = 0 := Nat.lt_one_iff.mp hj
    subst i0 j0
    exact r
  · rintro ⟨sp, hsp, e, o, ho, et⟩
    have m : id ∈ ids := by rw [← A1.species 0 0, ← e]; exact List.mem_map_of_mem hsp
    exact (key m).mpr (mem_tags.mpr ⟨0, 0, Nat.one_pos, Nat.one_pos, sp, hsp, e, o, ho, et⟩)

theorem step_same (hk : Pusher.Relativistic E.kind) (hz : E.dist = ZigZag.currentDistribution) {ids : List Nat} (nd : ids.Nodup)
    {S W : State} (A : Alive E ids S) (A1 : Alive E.whole ids W) (Q : Same E ids S W) (B : NoBorder E S) (NS : NoSeam E S) :
    ∃ S' W', (∀ T, Step E S T ↔ T = S') ∧ (∀ T, Step E.whole W T ↔ T = W') ∧ Alive E ids S' ∧ Alive E.whole ids W' ∧
      Housed E.p E.domR E.domZ E.e (depositsOf E S'.heap S'.D) ∧ Housed E.p 1 1 E.e (depositsOf E.whole W'.heap W'.D) ∧
      S'.heap = W'.heap ∧ (∀ id ∈ ids, (tagsOf E S'.D id).Perm (tagsOf E S.D id)) ∧
      (∀ id ∈ ids, (tagsOf E S'.D id).Perm (tagsOf E.whole W'.D id)) ∧ (NoCut E S' → Same E ids S' W') := by
  have h1 := whole_chamber h
  obtain ⟨M1, N1, m1, e1, f1, w1, w2, w3, w4⟩ := fields_same h.div h1.div Q.fields Q.sources
  have f1 : solveMaxwell (domPar E.whole.p E.whole.domR E.whole.domZ) E.whole.domR E.whole.domZ W.M = .ok N1 := f1
  -- a particle in both simulations
  have both : ∀ {sp o}, sp ∈ W.D 0 0 → o ∈ sp.parts → ∀ {i j sp' o'}, i < E.domR → j < E.domZ → sp' ∈ S.D i j → o' ∈ sp'.parts → o'.tag = o.tag →
      sp'.id = sp.id → ∀ junk, Pusher.push E.kind (E.pushPar sp'.id) junk E.e.pi (E.geom i j) (M1 i j) (S.heap o'.tag).posR (S.heap o'.tag).posZ
        (vel (S.heap o'.tag)) = Pusher.push E.kind (E.pushPar sp.id) junk E.e.pi (E.whole.geom 0 0) (N1 0 0) (W.heap o.tag).posR
        (W.heap o.tag).posZ (vel (W.heap o.tag)) := by
    intro sp o hsp ho i j sp' o' hi hj hsp' ho' et ei junk
    rw [et, ei, Q.heap]
    have pl := A.place i j hi hj sp' hsp' o' ho'
    rw [et, Q.heap] at pl
    have ns := NS i j hi hj sp' hsp' o' ho'
    rw [et, Q.heap] at ns
    exact push_same h w1 w2 hi hj pl (A1.place 0 0 Nat.one_pos Nat.one_pos sp hsp o ho) (fun k => ns (at_seam h k)) sp.id junk
  have B1 : NoBorder E.whole W := by
    intro N2 f2 i j hi hj sp hsp o ho junk v ev
    obtain rfl := Res.ok.inj (f1.symm.trans f2)
    have i0 : i = 0 := Nat.lt_one_iff.mp hi
    have j0 : j = 0 := Nat.lt_one_iff.mp hj
    subst i0 j0
    obtain ⟨i, j, hi', hj', sp', hsp', ei, o', ho', et⟩ := (listed_iff h A A1 Q o.tag sp.id).mpr ⟨sp, hsp, rfl, o, ho, rfl⟩
    have ep := both hsp ho hi' hj' hsp' ho' et ei junk
    have pl := A.place i j hi' hj' sp' hsp' o' ho'
    obtain ⟨u, p1, p2⟩ := push_ok h hk hi' hj' pl sp'.id (M1 i j)
    have ev' := ep.trans ev
    obtain rfl := Res.ok.inj ((p1 junk).symm.trans ev')
    have cl := B M1 e1 i j hi' hj' sp' hsp' o' ho' junk u ev'
    have := clear_whole h hi' hj' pl p2 cl
    rw [et, Q.heap] at this
    exact this
  obtain ⟨S', s1, s2, s3, s4⟩ := step_all h hk (hz ▸ zz_sound) nd A B
  obtain ⟨W', t1, t2, t3, t4⟩ := step_all h1 hk (hz ▸ zz_sound) nd A1 B1
  refine ⟨S', W', s1, t1, s2, t2, s4, t4, ?_⟩
  obtain ⟨M1', g1, g2, g3, g4, g5⟩ := (s1 S').mpr rfl
  obtain rfl := Res.ok.inj (e1.symm.trans g1)
  obtain ⟨N1', k1, k2, k3, k4, k5⟩ := (t1 W').mpr rfl
  obtain rfl := Res.ok.inj (f1.symm.trans k1)
  have heap : S'.heap = W'.heap := by
    funext t
    by_cases c : ∃ id, ∃ sp ∈ W.D 0 0, sp.id = id ∧ ∃ o ∈ sp.parts, o.tag = t
    · obtain ⟨_, sp, hsp, rfl, o, ho, rfl⟩ := c
      obtain ⟨i, j, hi', hj', sp', hsp', ei, o', ho', et⟩ := (listed_iff h A A1 Q o.tag sp.id).mpr ⟨sp, hsp, rfl, o, ho, rfl⟩
      obtain ⟨v, a1, a2, a3⟩ := moves_iff h hk A B e1 hi' hj' hsp' ho'
      obtain ⟨u, b1, b2, b3⟩ := moves_iff h1 hk A1 B1 f1 Nat.one_pos Nat.one_pos hsp ho
      have ep := both hsp ho hi' hj' hsp' ho' et ei true
      have b1 := b1 true
      have ep := (a1 true).symm.trans (ep.trans b1)
      obtain rfl := Res.ok.inj ep
      have x1 := (a3 _).mp (g2 i j hi' hj' sp' hsp' o' ho')
      have x2 := (b3 _).mp (k2 0 0 Nat.one_pos Nat.one_pos sp hsp o ho)
      rw [et] at x1
      rw [x1, x2, Q.heap]
      rfl
    · rw [g3 t ?_, k3 t ?_, Q.heap]
      · intro i j hi hj sp hsp o ho et
        have i0 : i = 0 := Nat.lt_one_iff.mp hi
        have j0 : j = 0 := Nat.lt_one_iff.mp hj
        subst i0 j0
        exact c ⟨_, sp, hsp, rfl, o, ho, et⟩
      · intro i j hi hj sp hsp o ho et
        exact c ⟨_, (listed_iff h A A1 Q t sp.id).mp ⟨i, j, hi, hj, sp, hsp, rfl, o, ho, et⟩⟩
  have lists : ∀ id ∈ ids, (tagsOf E S'.D id).Perm (tagsOf E.whole W'.D id) :=
    fun id hid => (s3 id hid).trans ((Q.lists id hid).trans (t3 id hid).symm)
  refine ⟨heap, s3, lists, fun nc => ?_⟩
  -- currents
  have q1 := deposits_perm E S'.heap nd s2.species
  have q2 := deposits_perm E.whole W'.heap nd t2.species
  have q3 : (partsOf E.whole.domR E.whole.domZ (fun _ _ => true) (depositsOf E.whole W'.heap W'.D)).Perm
      (partsOf E.domR E.domZ (fun _ _ => true) (depositsOf E S'.heap S'.D)) := by
    refine q2.trans (List.Perm.trans ?_ q1.symm)
    refine List.Perm.flatMap_left _ fun id hid => ?_
    rw [← heap]
    exact ((lists id hid).symm).map _
  obtain ⟨X, x, x1, x2, x3⟩ := C96_zigzag_partial E.p h.div E.e h.good (depositsOf E S'.heap S'.D) s4 (by
    intro a b ha hb q hq
    unfold depositsOf at hq
    obtain ⟨sp, hsp, hq⟩ := List.mem_flatMap.mp hq
    obtain ⟨o, ho, rfl⟩ := List.mem_map.mp hq
    exact nc a b ha hb sp hsp o ho) _ (List.Perm.refl _) M1 m1
  obtain ⟨X', y1, y2, _⟩ := C96_zigzag_exact_partial E.p h.div E.e h.good (depositsOf E S'.heap S'.D) s4 M1 m1
  obtain ⟨Y, y, z1, z2, z3⟩ := C96_zigzag_partial E.p h1.div E.e h.good (depositsOf E.whole W'.heap W'.D) t4 (by
    intro a b ha hb q hq
    have a0 : a < 1 := ha
    have b0 : b < 1 := hb
    show ¬ CutsCorner E.p 1 1 a b q
    unfold CutsCorner
    omega) _ q3.symm N1 m1
  obtain ⟨Y', u1, u2, _⟩ := C96_zigzag_exact_partial E.p h1.div E.e h.good (depositsOf E.whole W'.heap W'.D) t4 N1 m1
  rw [hz] at g5
  have k5 : solveCurrent E.dist E.p 1 1 E.e (depositsOf E.whole W'.heap W'.D) N1 = .ok W'.M := k5
  rw [hz] at k5
  obtain rfl := Res.ok.inj (x1.symm.trans y1)
  obtain rfl := Res.ok.inj (z1.symm.trans u1)
  obtain rfl := Res.ok.inj (g5.symm.trans x1)
  obtain rfl := Res.ok.inj (k5.symm.trans z1)
  obtain rfl := Res.ok.inj (x2.symm.trans z2)
  refine ⟨?_, ?_, heap, lists⟩
  · intro c hc i j x y ho
    have nj : c ≠ .jr ∧ c ≠ .jp ∧ c ≠ .jz := by
      refine ⟨?_, ?_, ?_⟩ <;> (rintro rfl; exact (nomatch hc))
    rw [y2 i j c x y ho.1 ho.2.1 nj.1 nj.2.1 nj.2.2, u2 0 0 c _ _ Nat.one_pos Nat.one_pos nj.1 nj.2.1 nj.2.2]
    exact w3 c hc i j x y ho
  · intro i j x y c hc ho
    by_cases nj : c = .jr ∨ c = .jp ∨ c = .jz
    · rw [x3 i j c x y nj ho]
      have bd := h.div.bounds ho.1 ho.2.1
      obtain ⟨_, _, hx, hy⟩ := ho
      have := z3 0 0 c (low E.p.nr E.domR i + x) (low E.p.nz E.domZ j + y) nj
        ⟨Nat.one_pos, Nat.one_pos, by show 0 ≤ _ ∧ _ < (hgt E.p.nr 1 0 : Int); rw [hgt_one]; omega,
          by show 0 ≤ _ ∧ _ < (hgt E.p.nz 1 0 : Int); rw [hgt_one]; omega⟩
      rw [this]
      show _ = _
      have e1 : (low E.p.nr E.whole.domR 0 : Int) = 0 := by show (low E.p.nr 1 0 : Int) = 0; rw [low_one]; rfl
      have e2 : (low E.p.nz E.whole.domZ 0 : Int) = 0 := by show (low E.p.nz 1 0 : Int) = 0; rw [low_one]; rfl
      rw [e1, e2, zero_add, zero_add]
    · have nj : c ≠ .jr ∧ c ≠ .jp ∧ c ≠ .jz := ⟨fun k => nj (Or.inl k), fun k => nj (Or.inr (Or.inl k)), fun k => nj (Or.inr (Or.inr k))⟩
      rw [y2 i j c x y ho.1 ho.2.1 nj.1 nj.2.1 nj.2.2, u2 0 0 c _ _ Nat.one_pos Nat.one_pos nj.1 nj.2.1 nj.2.2]
      exact w4 i j x y c hc ho

end

end Pic
end Pico
