import Verif.Lemmas.PicSame
import Verif.Props.Pic

/-!
# C98 — a divided simulation does what the undivided one does

`E.whole` is the simulation `E` without division.  `Same E ids S W` says that the divided state `S` and the undivided state `W`
show the same: fields, currents, particles and lists of particles.
-/

set_option linter.unusedSimpArgs false
set_option linter.unusedVariables false
set_option linter.unusedSectionVars false

namespace Pico
namespace Pic

open SMB Yee

/-- C98, one step: two simulations that show the same still do after one step, if no particle arrives exactly at a border of
its domain, is in a cell where four domains meet diagonally, or cuts the corner of a domain.  Full statement (false, see
`C98_corner_fails`): without these conditions. -/
theorem C98_step_partial {E : Env} (h : Chamber E) (hk : Pusher.Relativistic E.kind) (hz : E.dist = ZigZag.currentDistribution)
    {ids : List Nat} (nd : ids.Nodup) {S W : State} (A : Alive E ids S) (A1 : Alive E.whole ids W) (Q : Same E ids S W)
    (B : NoBorder E S) (NS : NoSeam E S) (NC : ∀ T, Step E S T → NoCut E T) :
    ∃ S' W', (∀ T, Step E S T ↔ T = S') ∧ (∀ T, Step E.whole W T ↔ T = W') ∧ Alive E ids S' ∧ Alive E.whole ids W' ∧ Same E ids S' W' := by
  obtain ⟨S', W', a, b, c, d, _, _, _, _, _, e⟩ := step_same h hk hz nd A A1 Q B NS
  exact ⟨S', W', a, b, c, d, e (NC S' ((a S').mpr rfl))⟩

/-- C98, any number of steps. -/
theorem C98_run_partial {E : Env} (h : Chamber E) (hk : Pusher.Relativistic E.kind) (hz : E.dist = ZigZag.currentDistribution)
    {ids : List Nat} (nd : ids.Nodup) {S W : State} (A : Alive E ids S) (A1 : Alive E.whole ids W) (Q : Same E ids S W) (n : Nat)
    (B : ∀ k T, k < n → Run E S k T → NoBorder E T ∧ NoSeam E T ∧ ∀ T', Step E T T' → NoCut E T') :
    ∃ S' W', (∀ T, Run E S n T ↔ T = S') ∧ (∀ T, Run E.whole W n T ↔ T = W') ∧ Alive E ids S' ∧ Alive E.whole ids W' ∧ Same E ids S' W' := by
  induction n with
  | zero =>
    refine ⟨S, W, fun T => ⟨fun r => ?_, fun e => e ▸ .start⟩, fun T => ⟨fun r => ?_, fun e => e ▸ .start⟩, A, A1, Q⟩
    · cases r
      rfl
    · cases r
      rfl
  | succ n ih =>
    obtain ⟨S1, W1, r1, q1, B1, C1, Q1⟩ := ih fun k T hk r => B k T (by omega) r
    have R1 := (r1 S1).mpr rfl
    obtain ⟨b1, b2, b3⟩ := B n S1 (by omega) R1
    obtain ⟨S2, W2, r2, q2, B2, C2, Q2⟩ := C98_step_partial h hk hz nd B1 C1 Q1 b1 b2 b3
    refine ⟨S2, W2, fun T => ⟨fun r => ?_, fun e => ?_⟩, fun T => ⟨fun r => ?_, fun e => ?_⟩, B2, C2, Q2⟩
    · cases r with
      | step ra rb =>
        rw [(r1 _).mp ra] at rb
        exact (r2 T).mp rb
    · rw [e]
      exact .step R1 ((r2 S2).mpr rfl)
    · cases r with
      | step ra rb =>
        rw [(q1 _).mp ra] at rb
        exact (q2 T).mp rb
    · rw [e]
      exact .step ((q1 W1).mpr rfl) ((q2 W2).mpr rfl)

/-- C98 for domains in a row (all along the radius, or all along the axis): no corners, so only exact borders are excepted. -/
theorem C98_chain_partial {E : Env} (h : Chamber E) (hk : Pusher.Relativistic E.kind) (hz : E.dist = ZigZag.currentDistribution)
    (h1 : E.domR = 1 ∨ E.domZ = 1) {ids : List Nat} (nd : ids.Nodup) {S W : State} (A : Alive E ids S) (A1 : Alive E.whole ids W)
    (Q : Same E ids S W) (n : Nat) (B : ∀ k T, k < n → Run E S k T → NoBorder E T) :
    ∃ S' W', (∀ T, Run E S n T ↔ T = S') ∧ (∀ T, Run E.whole W n T ↔ T = W') ∧ Alive E ids S' ∧ Alive E.whole ids W' ∧ Same E ids S' W' := by
  refine C98_run_partial h hk hz nd A A1 Q n fun k T hk r => ⟨B k T hk r, ?_, fun T' _ => ?_⟩
  · intro i j hi hj sp _ o _
    omega
  · intro i j hi hj sp _ o _
    unfold CutsCorner
    omega

/-! ### Corners -/

theorem flatMap_single {α β : Type _} {l : List α} (nd : l.Nodup) {f : α → List β} {a : α} (ha : a ∈ l) {b : β} (h : f a = [b])
    (h' : ∀ x ∈ l, x ≠ a → f x = []) : l.flatMap f = [b] := by
  induction l with
  | nil => exact absurd ha List.not_mem_nil
  | cons x l ih =>
    obtain ⟨n1, n2⟩ := List.nodup_cons.mp nd
    rw [List.flatMap_cons]
    by_cases c : x = a
    · subst c
      have : l.flatMap f = [] := by
        rw [List.flatMap_eq_nil_iff]
        intro y hy
        exact h' y (List.mem_cons_of_mem _ hy) fun k => n1 (k ▸ hy)
      rw [this, h]
      rfl
    · rw [h' x List.mem_cons_self c, List.nil_append]
      rcases List.mem_cons.mp ha with k | k
      · exact absurd k.symm c
      · exact ih n2 k fun y hy => h' y (List.mem_cons_of_mem _ hy)

/-- The full C98 fails: a single charged particle that goes to the next row of domains in the last column of a domain leaves, in
the undivided simulation, a radial current in the first column of the domain at that corner; in the divided simulation the cell
is empty. -/
theorem C98_corner_fails {E : Env} (h : Chamber E) (hk : Pusher.Relativistic E.kind) (hz : E.dist = ZigZag.currentDistribution)
    {ids : List Nat} (nd : ids.Nodup) {S W : State} (A : Alive E ids S) (A1 : Alive E.whole ids W) (Q : Same E ids S W)
    (B : NoBorder E S) (NS : NoSeam E S) {id t : Nat} (hid : id ∈ ids) (one : tagsOf E S.D id = [t])
    (none : ∀ id' ∈ ids, id' ≠ id → tagsOf E S.D id' = []) {S' W' : State} (s1 : Step E S S') (s2 : Step E.whole W W') {a b : Nat}
    (ha : a + 1 < E.domR) (hb : b + 1 < E.domZ) (c1 : ⌊(S'.heap t).oldR / E.p.dr⌋ + 1 = low E.p.nr E.domR (a + 1))
    (c2 : ⌊(S'.heap t).posR / E.p.dr⌋ = low E.p.nr E.domR (a + 1)) (c3 : ⌊(S'.heap t).posZ / E.p.dz⌋ + 1 = low E.p.nz E.domZ (b + 1))
    (c4 : ⌊(S'.heap t).oldZ / E.p.dz⌋ = ⌊(S'.heap t).posZ / E.p.dz⌋) (c5 : ⌊(S'.heap t).posZ / E.p.dz⌋ * E.p.dz < (S'.heap t).oldZ)
    (c6 : E.charge id * (S'.heap t).weight ≠ 0) :
    S'.M a (b + 1) .jr (hgt E.p.nr E.domR a - 1) 0 = 0 ∧
    W'.M 0 0 .jr (low E.p.nr E.domR a + (hgt E.p.nr E.domR a - 1)) (low E.p.nz E.domZ (b + 1)) ≠ 0 ∧ ¬ Same E ids S' W' := by
  have h1 := whole_chamber h
  obtain ⟨X, Y, x1, y1, AX, AY, HX, HY, hh, p1, p2, _⟩ := step_same h hk hz nd A A1 Q B NS
  obtain rfl := (x1 S').mp s1
  obtain rfl := (y1 W').mp s2
  obtain ⟨M1, _, _, _, _, g5⟩ := s1
  obtain ⟨N1, _, _, _, _, k5⟩ := s2
  have k5 : solveCurrent E.dist E.p 1 1 E.e (depositsOf E.whole W'.heap W'.D) N1 = .ok W'.M := k5
  rw [hz] at g5 k5
  have dr : 0 < E.p.dr := h.good.geo.dr
  have dz : 0 < E.p.dz := h.good.geo.dz
  have tS : tagsOf E S'.D id = [t] := List.perm_singleton.mp (one ▸ p1 id hid)
  have tN : ∀ id' ∈ ids, id' ≠ id → tagsOf E S'.D id' = [] := fun i hi ne => List.perm_nil.mp (none i hi ne ▸ p1 i hi)
  -- where the particle is
  have place : ∀ i j, i < E.domR → j < E.domZ → ∀ sp ∈ S'.D i j, ∀ o ∈ sp.parts, o.tag = t ∧ sp.id = id ∧ i = a + 1 ∧ j = b := by
    intro i j hi hj sp hsp o ho
    have m : o.tag ∈ tagsOf E S'.D sp.id := mem_tags.mpr ⟨i, j, hi, hj, sp, hsp, rfl, o, ho, rfl⟩
    have hm : sp.id ∈ ids := by rw [← AX.species i j]; exact List.mem_map_of_mem hsp
    have ei : sp.id = id := by
      by_contra c
      rw [tN _ hm c] at m
      exact List.not_mem_nil m
    rw [ei, tS] at m
    have et := List.mem_singleton.mp m
    have pl := AX.place i j hi hj sp hsp o ho
    rw [et] at pl
    have d := pl.dom
    rw [geom_eq h] at d
    have l1 := d.rlo
    have l2 := d.rhi
    have l3 := d.zlo
    have l4 := d.zhi
    dsimp only at l1 l2 l3 l4
    rw [low_hgt h h.div.r1 h.div.r2] at l2
    rw [low_hgt h h.div.z1 h.div.z2] at l4
    have f1 : (low E.p.nr E.domR i : Int) ≤ ⌊(S'.heap t).posR / E.p.dr⌋ ∧ ⌊(S'.heap t).posR / E.p.dr⌋ < (low E.p.nr E.domR (i + 1) : Int) := by
      rw [Int.le_floor, Int.floor_lt, le_div_iff₀ dr, div_lt_iff₀ dr]
      exact ⟨by exact_mod_cast l1, by exact_mod_cast l2⟩
    have f2 : (low E.p.nz E.domZ j : Int) ≤ ⌊(S'.heap t).posZ / E.p.dz⌋ ∧ ⌊(S'.heap t).posZ / E.p.dz⌋ < (low E.p.nz E.domZ (j + 1) : Int) := by
      rw [Int.le_floor, Int.floor_lt, le_div_iff₀ dz, div_lt_iff₀ dz]
      exact ⟨by exact_mod_cast l3, by exact_mod_cast l4⟩
    have s := low_step h.div.r1 h.div.r2 (a + 1)
    have bd := (h.div.bounds (show a + 1 < E.domR from ha) (show b + 1 < E.domZ from hb))
    have s' := low_step h.div.z1 h.div.z2 b
    obtain ⟨i0, _, u1⟩ := owner h h.div.r1 h.div.r2 h.div.r4 (x := ⌊(S'.heap t).posR / E.p.dr⌋) (by omega) (by omega)
    obtain ⟨j0, _, u2⟩ := owner h h.div.z1 h.div.z2 h.div.z4 (x := ⌊(S'.heap t).posZ / E.p.dz⌋) (by omega) (by omega)
    refine ⟨et, ei, ?_, ?_⟩
    · rw [(u1 i).mp f1, (u1 (a + 1)).mp (by omega)]
    · rw [(u2 j).mp f2, (u2 b).mp (by omega)]
  obtain ⟨i, j, hi, hj, sp, hsp, ei, o, ho, et⟩ := mem_tags.mp (show t ∈ tagsOf E S'.D id by rw [tS]; exact List.mem_singleton_self t)
  obtain ⟨_, _, rfl, rfl⟩ := place i j hi hj sp hsp o ho
  have hq := (HX (a + 1) j hi hj (depositOf (E.charge sp.id) (S'.heap o.tag)) (List.mem_flatMap.mpr ⟨sp, hsp, List.mem_map.mpr ⟨o, ho, rfl⟩⟩)).1
  rw [et, ei] at hq
  have r0 := h.r0
  obtain ⟨_, m', _, e1, cell, _, ne⟩ := C96_corner_fails E.p h.div E.e h.good a j ha hb (depositOf (E.charge id) (S'.heap t)) hq
    (by show ⌊(S'.heap t).oldR / E.p.dr⌋ + 1 = _; omega) (by show ⌊(S'.heap t).posR / E.p.dr⌋ = ⌊(S'.heap t).oldR / E.p.dr⌋ + 1; omega)
    c3 c4 c5 c6 M1 (fun _ _ _ => 0)
  -- the divided simulation
  have z1 : S'.M a (j + 1) .jr (hgt E.p.nr E.domR a - 1) 0 = 0 := by
    obtain ⟨M', f1, _, f3⟩ := C96_zigzag_exact_partial E.p h.div E.e h.good (depositsOf E S'.heap S'.D) HX M1 (fun _ _ _ => 0)
    obtain rfl := Res.ok.inj (f1.symm.trans g5)
    have nil : partsOf E.domR E.domZ (fun i' j' => !Antidiagonal a (j + 1) i' j') (depositsOf E S'.heap S'.D) = [] := by
      rw [List.eq_nil_iff_forall_not_mem]
      intro q hq
      obtain ⟨i', j', hi', hj', k, hq⟩ := mem_partsOf.mp hq
      obtain ⟨sp', hsp', hq⟩ := List.mem_flatMap.mp hq
      obtain ⟨o', ho', rfl⟩ := List.mem_map.mp hq
      obtain ⟨_, _, rfl, rfl⟩ := place i' j' hi' hj' sp' hsp' o' ho'
      simp [Antidiagonal] at k
    obtain ⟨m2, e2, v2⟩ := f3 a (j + 1) (by omega) hb [] (by rw [nil])
    rw [v2 .jr _ _ (Or.inl rfl) cell]
    refine zz_none _ _ e2 .jr (Or.inl rfl) _ _ ?_
    have bd := h.div.bounds (show a < E.domR by omega) hb
    show (-2 ≤ _ ∧ _ < (E.p.nr : Int) + 2) ∧ (-2 ≤ _ ∧ _ < (E.p.nz : Int) + 2)
    omega
  -- the undivided simulation
  have z2 : W'.M 0 0 .jr (low E.p.nr E.domR a + (hgt E.p.nr E.domR a - 1)) (low E.p.nz E.domZ (j + 1)) ≠ 0 := by
    obtain ⟨M', f1, _, f3⟩ := C96_zigzag_exact_partial E.p h1.div E.e h.good (depositsOf E.whole W'.heap W'.D) HY N1 (fun _ _ _ => 0)
    obtain rfl := Res.ok.inj (f1.symm.trans k5)
    have tW : tagsOf E.whole W'.D id = [t] := List.perm_singleton.mp ((p2 id hid).symm.trans (by rw [tS]))
    have tM : ∀ id' ∈ ids, id' ≠ id → tagsOf E.whole W'.D id' = [] := fun i hi ne =>
      List.perm_nil.mp ((p2 i hi).symm.trans (by rw [tN i hi ne]))
    have q2 := deposits_perm E.whole W'.heap nd AY.species
    rw [flatMap_single nd hid (b := depositOf (E.charge id) (S'.heap t)) (by rw [tW, hh]; rfl)
      (fun x hx ne => by rw [tM x hx ne]; rfl)] at q2
    obtain ⟨m2, e2, v2⟩ := f3 0 0 Nat.one_pos Nat.one_pos [depositOf (E.charge id) (S'.heap t)] (q2.symm.trans (List.Perm.of_eq (by
      unfold partsOf
      refine List.flatMap_congr fun x hx => List.flatMap_congr fun y hy => ?_
      have hx : x < 1 := List.mem_range.mp hx
      have hy : y < 1 := List.mem_range.mp hy
      have x0 : x = 0 := by omega
      have y0 : y = 0 := by omega
      subst x0 y0
      rfl)))
    obtain rfl := Res.ok.inj (e1.symm.trans e2)
    have bd := h.div.bounds (show a < E.domR by omega) hb
    have := v2 .jr (low E.p.nr E.domR a + (hgt E.p.nr E.domR a - 1)) (low E.p.nz E.domZ (j + 1)) (Or.inl rfl)
      ⟨Nat.one_pos, Nat.one_pos, by show 0 ≤ _ ∧ _ < (hgt E.p.nr 1 0 : Int); rw [hgt_one]; omega,
          by show 0 ≤ _ ∧ _ < (hgt E.p.nz 1 0 : Int); rw [hgt_one]; omega⟩
    rw [this]
    have e1 : (low E.p.nr E.whole.domR 0 : Int) = 0 := by show (low E.p.nr 1 0 : Int) = 0; rw [low_one]; rfl
    have e2 : (low E.p.nz E.whole.domZ 0 : Int) = 0 := by show (low E.p.nz 1 0 : Int) = 0; rw [low_one]; rfl
    rw [e1, e2, zero_add, zero_add]
    rw [add_zero] at ne
    exact ne
  refine ⟨z1, z2, fun k => z2 ?_⟩
  have := k.sources a (j + 1) _ _ .jr rfl cell
  rw [z1, add_zero] at this
  exact this.symm

/-! ### Non-vacuity -/

theorem rest_whole (p : Par ℝ) {domR domZ : Nat} (hd : Divided p domR domZ) :
    ∃ m, (calcE p exMedium >>= calcH p) = .ok m ∧ ∀ c i k, c.isSource = false → p.inside i k → m c i k = 0 := by
  have g1 := hd.r1
  have g2 := hd.r2
  have g3 := hd.r3
  have g4 := hd.z1
  have g5 := hd.z2
  have g6 := hd.z3
  obtain ⟨m1, e1, f1, f2, f3⟩ := calcE_eq p (by omega) (by omega) (by omega) (by omega) exMedium
  obtain ⟨m2, e2, h1, h2, h3⟩ := calcH_eq p (by omega) m1
  have z : ∀ c, c ≠ .eps → ∀ i k, exMedium c i k = 0 := fun c hc i k => if_neg hc
  have n0 : ∀ i k, newE p exMedium i k 0 0 = 0 := fun i k => by unfold newE; ring
  have E0 : ∀ c i k, isE c → p.inside i k → m1 c i k = 0 := by
    intro c i k hc hin
    by_cases hl : p.logical i k
    · obtain ⟨a1, a2, a3⟩ := f3 i k hl
      have r0 : xR p exMedium i k = 0 := by unfold xR; simp [z]
      have p0 : xP p exMedium i k = 0 := by unfold xP; simp [z]
      have z0 : xZ p exMedium i k = 0 := by unfold xZ; simp [z]
      have w0 : xA p exMedium i k = 0 := by unfold xA; simp [z]
      rw [r0, z .er (by decide), n0, ite_self] at a1
      rw [p0, z .ep (by decide), n0, ite_self] at a2
      rw [z0, w0, z .ez (by decide), n0, ite_self, ite_self] at a3
      rcases hc with rfl | rfl | rfl
      · exact a1
      · exact a2
      · exact a3
    · exact f2 c i k hc hin hl
  refine ⟨m2, by rw [e1, Res.ok_bind, e2], ?_⟩
  intro c i k hc hin
  by_cases hH : isH c
  · by_cases hl : p.logical i k
    · have i2 : p.inside i (k + 1) := by unfold Par.inside; unfold Par.logical at hl; omega
      have i3 : p.inside (i + 1) k := by unfold Par.inside; unfold Par.logical at hl; omega
      have r0 : aR p m1 i k = 0 := by
        unfold aR
        rw [E0 .ep i k (Or.inr (Or.inl rfl)) hin, E0 .ep i (k + 1) (Or.inr (Or.inl rfl)) i2]
        norm_num
      have p0 : aP p m1 i k = 0 := by
        unfold aP
        rw [E0 .ez i k (Or.inr (Or.inr rfl)) hin, E0 .ez (i + 1) k (Or.inr (Or.inr rfl)) i3, E0 .er i k (Or.inl rfl) hin,
          E0 .er i (k + 1) (Or.inl rfl) i2]
        norm_num
      have z0 : aZ p m1 i k = 0 := by
        unfold aZ
        rw [E0 .ep i k (Or.inr (Or.inl rfl)) hin, E0 .ep (i + 1) k (Or.inr (Or.inl rfl)) i3]
        norm_num
      have b := h2 i k hl
      have o : ∀ c, ¬ isE c → c ≠ .eps → m1 c i k = 0 := fun c hc ne => by rw [f1 c i k hc]; exact if_neg ne
      have o1 := o .hr (by unfold isE; simp) (by decide)
      have o2 := o .hp (by unfold isE; simp) (by decide)
      have o3 := o .hz (by unfold isE; simp) (by decide)
      rw [r0, p0, z0, o1, o2, o3, ite_self] at b
      obtain ⟨⟨b1, b2⟩, b3, b4, b5, b6⟩ := b
      unfold isH at hH
      rcases hH with rfl | rfl | rfl | rfl | rfl | rfl <;> simp_all
    · exact h3 c i k hH hin hl
  · rw [h1 c i k hH]
    refine E0 c i k ?_ hin
    cases c <;> first | (exact absurd hc (by decide)) | (unfold isE; simp; done) | (exact absurd (by unfold isH; simp) hH)

/-- Without fields and currents there are none after the step. -/
theorem rest_fields (p : Par ℝ) {domR domZ : Nat} (hd : Divided p domR domZ) :
    ∃ M1, solveMaxwell (domPar p domR domZ) domR domZ (fun _ _ => exMedium) = .ok M1 ∧
      ∀ c, c.isSource = false → Windows p domR domZ c M1 (fun _ _ _ => 0) := by
  obtain ⟨m0, e0, z0⟩ := rest_whole p hd
  obtain ⟨M1, m1, a1, a2, a3, _⟩ := C62_step p hd (M := fun _ _ => exMedium) (m := exMedium)
    (fun c hc i j x y _ => ⟨fun _ => rfl, fun _ => if_neg (fun k => by rw [k] at hc; exact (nomatch hc))⟩) (loc := fun _ _ => exMedium) (src := exMedium) (fun _ _ _ _ _ _ _ => rfl)
  have e : setSources exMedium exMedium = exMedium := by
    funext c x y
    exact ite_self _
  rw [e] at a1 a2
  obtain rfl := Res.ok.inj (a2.symm.trans e0)
  refine ⟨M1, a1, fun c hc i j x y ho => ?_⟩
  obtain ⟨k1, k2⟩ := a3 c hc i j x y ho
  refine ⟨fun s => ?_, k2⟩
  rw [k1 s]
  refine z0 c _ _ hc ?_
  have bd := hd.bounds ho.1 ho.2.1
  obtain ⟨_, _, hx, hy⟩ := ho
  unfold Par.inside
  omega

/-- Free flight. -/
theorem free {E : Env} (h : Chamber E) (hk : E.kind = .borisRelativistic) {i j : Nat} (hi : i < E.domR) (hj : j < E.domZ)
    {a : Part ℝ} (ha : InPlace E i j a) (hs : ¬ Interp.AtSeam E.p E.domR E.domZ i j a.posR a.posZ) (id : Nat) {M1 : Solvers ℝ}
    (W : ∀ c, c.isSource = false → Windows E.p E.domR E.domZ c M1 (fun _ _ _ => 0)) (junk : Bool) :
    Pusher.push E.kind (E.pushPar id) junk E.e.pi (E.geom i j) (M1 i j) a.posR a.posZ (vel a) = .ok (vel a) := by
  have dr : 0 < E.p.dr := h.good.geo.dr
  have dz : 0 < E.p.dz := h.good.geo.dz
  have big : E.p.r0 + E.p.nr < 2 ^ 31 := by have := h.div.r3; rw [h.r0]; omega
  have c1 := Interp.C63_partial E.e.pi E.p dr dz big h.div W hi hj ha.dom hs
  have G : (Interp.areaGeom E.p).Good := h.good.geo
  have hin : (Interp.areaGeom E.p).Contains a.posR a.posZ := by
    have r0 : (Interp.areaGeom E.p).r0 = 0 := h.r0
    refine ⟨?_, ?_, ?_, ?_⟩
    · rw [r0, Nat.cast_zero, zero_mul]
      linarith [ha.r1]
    · rw [r0, zero_add]
      show a.posR < (E.p.nr : ℝ) * E.p.dr
      linarith [ha.r2]
    · show ((0 : Nat) : ℝ) * E.p.dz ≤ a.posZ
      rw [Nat.cast_zero, zero_mul]
      linarith [ha.z1]
    · show a.posZ < ((0 + E.p.nz : Nat) : ℝ) * E.p.dz
      rw [zero_add]
      linarith [ha.z2]
  have hr : (Interp.areaGeom E.p).dr / 2 ≤ a.posR := ha.r1
  unfold Pusher.push
  rw [geom_dom, c1.1, c1.2, Interp.C23_electric_partial (pi := E.e.pi) h.good.pi G hin hr,
    Interp.C23_magnetic (pi := E.e.pi) h.good.pi G hin hr, Res.ok_bind, Res.ok_bind,
    Interp.seen_uniform (Interp.around10 G hin hr), Interp.seen_uniform (Interp.around00 G hin hr),
    Interp.seen_uniform (Interp.around01 G hin hr), Interp.seen_uniform (Interp.around11 G hin hr)]
  simp only [mul_zero, sub_zero, add_zero]
  obtain ⟨w, e, _, k⟩ := Pusher.C71_boris E.kind (Or.inr (Or.inl hk)) (E.pushPar id) junk h.c Vec3.zero (vel a) ha.slow
  rw [k rfl] at e
  rw [← e]
  rfl

/-- A particle of the first domain in empty space. -/
theorem ex_fly {q : ℝ} {a : Part ℝ} (ha : InPlace (exEnv 2 2 q) 0 0 a) {M1 : Solvers ℝ}
    (e1 : solveMaxwell (domPar (exEnv 2 2 q).p 2 2) 2 2 (exState 0 a).M = .ok M1) (id : Nat) (junk : Bool) :
    Pusher.push (exEnv 2 2 q).kind ((exEnv 2 2 q).pushPar id) junk (exEnv 2 2 q).e.pi ((exEnv 2 2 q).geom 0 0) (M1 0 0) a.posR a.posZ
      (vel a) = .ok (vel a) := by
  obtain ⟨M2, e2, W⟩ := rest_fields (exEnv 2 2 q).p ex_div2
  obtain rfl := Res.ok.inj (e2.symm.trans e1)
  exact free (exEnv_chamber ex_div2 q) rfl (by show 0 < 2; decide) (by show 0 < 2; decide) ha (by unfold Interp.AtSeam; omega) id W junk

theorem ex_no_border {q : ℝ} {a : Part ℝ} (ha : InPlace (exEnv 2 2 q) 0 0 a) (hr : 0 < a.posR + a.velR * (1 / 2)) (hz : 0 < a.posZ + a.velZ * (1 / 2)) :
    NoBorder (exEnv 2 2 q) (exState 0 a) := by
  intro M1 e1 i j hi hj sp hsp o ho junk v ev
  obtain ⟨rfl, rfl, _⟩ := ex_listed hsp ho
  obtain rfl := Res.ok.inj (ev.symm.trans (ex_fly ha e1 sp.id junk))
  unfold Clear
  rw [low_zero, low_zero, Nat.cast_zero, zero_mul, zero_mul]
  refine ⟨(Real.sqrt_pos.mpr (add_pos_of_pos_of_nonneg (pow_pos ?_ 2) (sq_nonneg _))).ne', ne_of_gt ?_⟩
  · exact hr
  · exact hz

theorem ex_no_seam {q : ℝ} {a : Part ℝ} : NoSeam (exEnv 2 2 q) (exState 0 a) := by
  intro i j hi hj sp hsp o ho
  obtain ⟨rfl, rfl, _⟩ := ex_listed hsp ho
  omega

theorem ex_same {q : ℝ} {a : Part ℝ} : Same (exEnv 2 2 q) [7] (exState 0 a) (exState 0 a) where
  fields := fun c hc _ _ _ _ _ => ⟨fun _ => rfl, fun _ => if_neg (fun k => by rw [k] at hc; exact (nomatch hc))⟩
  sources := fun _ _ _ _ _ _ _ => rfl
  heap := rfl
  lists := fun id hid => by
    obtain rfl := List.mem_singleton.mp hid
    exact List.Perm.of_eq (by rfl)

theorem ex_landed {q : ℝ} {a : Part ℝ} (ha : InPlace (exEnv 2 2 q) 0 0 a) (B : NoBorder (exEnv 2 2 q) (exState 0 a)) {T : State}
    (st : Step (exEnv 2 2 q) (exState 0 a) T) : T.heap 0 = landed (exEnv 2 2 q) a (vel a) := by
  have h := exEnv_chamber ex_div2 q
  obtain ⟨M1, e1, g, _⟩ := st
  have hsp : (⟨7, [⟨0, 0, 0⟩]⟩ : Sp) ∈ (exState 0 a).D 0 0 := by simp [exState]
  have ho : (⟨0, 0, 0⟩ : Prt) ∈ (⟨7, [⟨0, 0, 0⟩]⟩ : Sp).parts := by simp
  obtain ⟨v, p1, _, p3⟩ := moves_iff h (Or.inl rfl) (exState_alive ha (by rfl)) B e1 (i := 0) (j := 0) (by show 0 < 2; decide) (by show 0 < 2; decide) hsp ho
  have := (p3 _).mp (g 0 0 (by show 0 < 2; decide) (by show 0 < 2; decide) _ hsp _ ho)
  obtain rfl := Res.ok.inj ((p1 true).symm.trans (ex_fly ha e1 7 true))
  exact this

/-- A particle on its way to a corner. -/
noncomputable def exCut : Part ℝ := exPart (19/10) (14/10) (4/10) (2/10) 1 1

theorem exCut_place : InPlace (exEnv 2 2 1) 0 0 exCut := by
  refine ⟨rfl, ?_, ?_, ?_, ?_, ?_, ?_, ?_, ?_⟩
  · rw [geom_eq (exEnv_chamber ex_div2 1)]
    constructor <;> norm_num [exEnv, exPart, exCut, low, hgt]
  all_goals norm_num [exEnv, exPart, exCut, vel, Vec3.length2, Int.floor_eq_iff]

theorem exCut_place1 : InPlace (exEnv 1 1 1) 0 0 exCut := by
  refine ⟨rfl, ?_, ?_, ?_, ?_, ?_, ?_, ?_, ?_⟩
  · rw [geom_eq (exEnv_chamber ex_div1 1)]
    constructor <;> norm_num [exEnv, exPart, exCut, low, hgt]
  all_goals norm_num [exEnv, exPart, exCut, vel, Vec3.length2, Int.floor_eq_iff]

theorem exCut_lands : landR (exEnv 2 2 1) exCut (vel exCut) = 21/10 ∧ landZ (exEnv 2 2 1) exCut (vel exCut) = 15/10 := by
  constructor
  · unfold landR
    rw [Real.sqrt_eq_iff_mul_self_eq (by positivity) (by norm_num)]
    norm_num [exEnv, exPart, exCut, vel]
  · norm_num [landZ, exEnv, exPart, exCut, vel]

/-- C98 fails: one step of one charged particle in empty space, with and without division. -/
example : ∃ S' W', Step (exEnv 2 2 1) (exState 0 exCut) S' ∧ Step (exEnv 1 1 1) (exState 0 exCut) W' ∧ ¬ Same (exEnv 2 2 1) [7] S' W' := by
  have h := exEnv_chamber ex_div2 1
  have A : Alive (exEnv 2 2 1) [7] (exState 0 exCut) := exState_alive exCut_place (by rfl)
  have A1 : Alive (exEnv 2 2 1).whole [7] (exState 0 exCut) := exState_alive (R := 1) (Z := 1) exCut_place1 (by rfl)
  have B : NoBorder (exEnv 2 2 1) (exState 0 exCut) := ex_no_border exCut_place (by norm_num [exCut, exPart]) (by norm_num [exCut, exPart])
  obtain ⟨S', W', s1, s2, _⟩ := step_same h (Or.inl rfl) rfl (by simp) A A1 ex_same B ex_no_seam
  have s1 := (s1 S').mpr rfl
  have s2 := (s2 W').mpr rfl
  refine ⟨S', W', s1, s2, ?_⟩
  have e := ex_landed exCut_place B s1
  obtain ⟨l1, l2⟩ := exCut_lands
  have x1 : (S'.heap 0).posR = 21/10 := by
    rw [e]
    show Part.mirX true true (1 : ℝ) ((4 : ℕ) * 1) (landR (exEnv 2 2 1) exCut (vel exCut)) = _
    rw [l1]
    norm_num [Part.mirX]
  have x2 : (S'.heap 0).posZ = 15/10 := by
    rw [e]
    show Part.mirX true true (1 : ℝ) ((4 : ℕ) * 1) (landZ (exEnv 2 2 1) exCut (vel exCut)) = _
    rw [l2]
    norm_num [Part.mirX]
  have x3 : (S'.heap 0).oldR = 19/10 := by rw [e]; rfl
  have x4 : (S'.heap 0).oldZ = 14/10 := by rw [e]; rfl
  have x5 : (S'.heap 0).weight = 1 := by rw [e]; rfl
  refine (C98_corner_fails h (Or.inl rfl) rfl (by simp) A A1 ex_same B ex_no_seam (id := 7) (t := 0) (by simp) (by rfl)
    (fun i hi ne => absurd (List.mem_singleton.mp hi) ne) s1 s2 (a := 0) (b := 0) (by decide) (by decide) ?_ ?_ ?_ ?_ ?_ ?_).2.2
  · rw [x3]; norm_num [exEnv, low, Int.floor_eq_iff]
  · rw [x1]; norm_num [exEnv, low, Int.floor_eq_iff]
  · rw [x2]; norm_num [exEnv, low, Int.floor_eq_iff]
  · rw [x2, x4]; norm_num [exEnv]
  · rw [x2, x4]; norm_num [exEnv]
  · rw [x5]; norm_num [exEnv]


/-- A particle that goes straight through the point where four domains meet. -/
noncomputable def exTurn : Part ℝ := exPart (19/10) (19/10) (3/10) (4/10) 1 1

theorem exTurn_place : InPlace (exEnv 2 2 1) 0 0 exTurn := by
  refine ⟨rfl, ?_, ?_, ?_, ?_, ?_, ?_, ?_, ?_⟩
  · rw [geom_eq (exEnv_chamber ex_div2 1)]
    constructor <;> norm_num [exEnv, exPart, exTurn, low, hgt]
  all_goals norm_num [exEnv, exPart, exTurn, vel, Vec3.length2, Int.floor_eq_iff]

theorem exTurn_place1 : InPlace (exEnv 1 1 1) 0 0 exTurn := by
  refine ⟨rfl, ?_, ?_, ?_, ?_, ?_, ?_, ?_, ?_⟩
  · rw [geom_eq (exEnv_chamber ex_div1 1)]
    constructor <;> norm_num [exEnv, exPart, exTurn, low, hgt]
  all_goals norm_num [exEnv, exPart, exTurn, vel, Vec3.length2, Int.floor_eq_iff]

/-- The hypotheses of `C98_step_partial` for a charged particle that changes the domain. -/
example : Chamber (exEnv 2 2 1) ∧ Alive (exEnv 2 2 1) [7] (exState 0 exTurn) ∧ Alive (exEnv 2 2 1).whole [7] (exState 0 exTurn) ∧
    Same (exEnv 2 2 1) [7] (exState 0 exTurn) (exState 0 exTurn) ∧ NoBorder (exEnv 2 2 1) (exState 0 exTurn) ∧
    NoSeam (exEnv 2 2 1) (exState 0 exTurn) ∧ ∀ T, Step (exEnv 2 2 1) (exState 0 exTurn) T → NoCut (exEnv 2 2 1) T := by
  have h := exEnv_chamber ex_div2 1
  have A : Alive (exEnv 2 2 1) [7] (exState 0 exTurn) := exState_alive exTurn_place (by rfl)
  have A1 : Alive (exEnv 2 2 1).whole [7] (exState 0 exTurn) := exState_alive (R := 1) (Z := 1) exTurn_place1 (by rfl)
  have B : NoBorder (exEnv 2 2 1) (exState 0 exTurn) := ex_no_border exTurn_place (by norm_num [exTurn, exPart]) (by norm_num [exTurn, exPart])
  refine ⟨h, A, A1, ex_same, B, ex_no_seam, fun T st => ?_⟩
  obtain ⟨S', s1, AS, pm⟩ := C97_step_partial h (Or.inl rfl) (Or.inr rfl) (by simp) A B
  obtain rfl := (s1 T).mp st
  have e := ex_landed exTurn_place B st
  intro i j hi hj sp hsp o ho
  have hid : sp.id = 7 := by
    have : sp.id ∈ [7] := by rw [← AS.species i j]; exact List.mem_map_of_mem hsp
    exact List.mem_singleton.mp this
  have ht : o.tag = 0 := by
    have m := (pm 7 (by simp)).mem_iff.mp (mem_tags.mpr ⟨i, j, hi, hj, sp, hsp, hid, o, ho, rfl⟩)
    exact List.mem_singleton.mp m
  have pl := AS.place i j hi hj sp hsp o ho
  rw [ht, e] at pl
  have l1 : landR (exEnv 2 2 1) exTurn (vel exTurn) = 205/100 := by
    unfold landR
    rw [Real.sqrt_eq_iff_mul_self_eq (by positivity) (by norm_num)]
    norm_num [exEnv, exPart, exTurn, vel]
  have x1 : (landed (exEnv 2 2 1) exTurn (vel exTurn)).posR = 205/100 := by
    show Part.mirX true true (1 : ℝ) ((4 : ℕ) * 1) (landR (exEnv 2 2 1) exTurn (vel exTurn)) = _
    rw [l1]
    norm_num [Part.mirX]
  have d := pl.dom.rhi
  rw [x1, geom_eq h] at d
  have hi : i < 2 := hi
  have hj : j < 2 := hj
  have i1 : i = 1 := by
    obtain rfl | rfl : i = 0 ∨ i = 1 := by omega
    · norm_num [exEnv, low, hgt] at d
    · rfl
  have l2 : landZ (exEnv 2 2 1) exTurn (vel exTurn) = 21/10 := by norm_num [landZ, exEnv, exPart, exTurn, vel]
  have x2 : (landed (exEnv 2 2 1) exTurn (vel exTurn)).posZ = 21/10 := by
    show Part.mirX true true (1 : ℝ) ((4 : ℕ) * 1) (landZ (exEnv 2 2 1) exTurn (vel exTurn)) = _
    rw [l2]
    norm_num [Part.mirX]
  have d := pl.dom.zhi
  rw [x2, geom_eq h] at d
  have j1 : j = 1 := by
    obtain rfl | rfl : j = 0 ∨ j = 1 := by omega
    · norm_num [exEnv, low, hgt] at d
    · rfl
  subst i1 j1
  show ¬ CutsCorner _ 2 2 1 1 _
  unfold CutsCorner
  omega

end Pic
end Pico
