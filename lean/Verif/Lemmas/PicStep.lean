import Verif.Lemmas.PicMove
import Verif.Lemmas.Schemes
import Verif.Props.SeenDivided
import Mathlib.Data.List.Perm.Basic

/-! The whole step: fields, particles, hand-over, currents. -/

set_option linter.unusedSimpArgs false
set_option linter.unusedVariables false
set_option linter.unusedSectionVars false

namespace Pico
namespace Pic

open SMB Yee

/-! ### Lists -/

theorem flatMap_swap {α β γ : Type _} (l : List α) (k : List β) (f : α → β → List γ) :
    (l.flatMap fun a => k.flatMap fun b => f a b).Perm (k.flatMap fun b => l.flatMap fun a => f a b) := by
  induction l with
  | nil => simp
  | cons a l ih =>
    rw [List.flatMap_cons]
    simp only [List.flatMap_cons]
    exact (List.Perm.append_left _ ih).trans (List.flatMap_append_perm k (f a) fun b => l.flatMap fun a => f a b)

/-- A list is made of the parts of it that belong to different owners. -/
theorem split_perm {α β : Type _} [DecidableEq α] (qs : List α) (nd : qs.Nodup) (own : α → β → Bool) (l : List β)
    (h : ∀ b ∈ l, ∃ q ∈ qs, ∀ q' ∈ qs, (own q' b = true ↔ q' = q)) : (qs.flatMap fun q => l.filter (own q)).Perm l := by
  induction l with
  | nil => simp
  | cons b l ih =>
    obtain ⟨q, hq, e⟩ := h b List.mem_cons_self
    have one : (qs.flatMap fun q => if own q b then [b] else []) = [b] := by
      have : ∀ q' ∈ qs, (if own q' b then [b] else []) = if q' = q then [b] else [] := by
        intro q' h'
        by_cases c : q' = q
        · rw [if_pos c, if_pos ((e q' h').mpr c)]
        · rw [if_neg c, if_neg (fun k => c ((e q' h').mp k))]
      rw [List.flatMap_congr this]
      clear this e ih h
      induction qs with
      | nil => exact absurd hq List.not_mem_nil
      | cons a qs ih =>
        obtain ⟨n1, n2⟩ := List.nodup_cons.mp nd
        rw [List.flatMap_cons]
        by_cases c : a = q
        · rw [if_pos c]
          have : (qs.flatMap fun q' => if q' = q then [b] else []) = [] := by
            rw [List.flatMap_eq_nil_iff]
            intro x hx
            exact if_neg (fun k => n1 (by rw [c, ← k]; exact hx))
          rw [this]
          rfl
        · rw [if_neg c, List.nil_append]
          refine ih n2 ?_
          rcases List.mem_cons.mp hq with k | k
          · exact absurd k.symm c
          · exact k
    have ih := ih fun b hb => h b (List.mem_cons_of_mem _ hb)
    have e2 : (qs.flatMap fun q => (b :: l).filter (own q)) = qs.flatMap fun q => (if own q b then [b] else []) ++ l.filter (own q) := by
      refine List.flatMap_congr fun q _ => ?_
      rw [List.filter_cons]
      split <;> rfl
    rw [e2]
    refine (List.flatMap_append_perm qs _ _).symm.trans ?_
    rw [one]
    exact List.Perm.cons _ ih

theorem disjoint_of {α β : Type _} {l : List α} {f : α → List β} (h : l.Pairwise (Function.onFun List.Disjoint f)) {a b : α} (ha : a ∈ l)
    (hb : b ∈ l) (c : a ≠ b) : (f a).Disjoint (f b) := by
  haveI : Std.Symm (Function.onFun List.Disjoint f) := ⟨fun _ _ k => List.Disjoint.symm k⟩
  exact List.Pairwise.forall h ha hb c

/-! ### Lists of particles -/

theorem parts_cells (heap : Nat → Part ℝ) (D : Doms) (i j id : Nat) : SMB.parts (cellsOf heap D) i j id =
    (SMB.parts D i j id).map fun o => ⟨asInt (heap o.tag).cellR, asInt (heap o.tag).cellZ, o.tag⟩ := by
  unfold SMB.parts cellsOf
  rw [List.filter_map, List.flatMap_map, List.map_flatMap]
  rfl

theorem mem_parts {D : Doms} {i j id : Nat} {o : Prt} : o ∈ SMB.parts D i j id ↔ ∃ sp ∈ D i j, sp.id = id ∧ o ∈ sp.parts := by
  unfold SMB.parts
  simp only [List.mem_flatMap, List.mem_filter, decide_eq_true_eq]
  constructor
  · rintro ⟨sp, ⟨a, b⟩, c⟩; exact ⟨sp, a, b, c⟩
  · rintro ⟨sp, a, b, c⟩; exact ⟨sp, ⟨a, b⟩, c⟩

theorem mem_allDoms {g : Geo} {q : Nat × Nat} : q ∈ allDoms g ↔ q.1 < g.domR ∧ q.2 < g.domZ := by
  unfold allDoms
  rw [mem_idx2]
  omega

theorem mem_tags {E : Env} {D : Doms} {id t : Nat} : t ∈ tagsOf E D id ↔
    ∃ i j, i < E.domR ∧ j < E.domZ ∧ ∃ sp ∈ D i j, sp.id = id ∧ ∃ o ∈ sp.parts, o.tag = t := by
  unfold tagsOf
  simp only [List.mem_flatMap, mem_allDoms, List.mem_map, mem_parts]
  constructor
  · rintro ⟨q, ⟨a, b⟩, o, ⟨sp, c, d, e⟩, f⟩
    exact ⟨q.1, q.2, a, b, sp, c, d, o, e, f⟩
  · rintro ⟨i, j, a, b, sp, c, d, o, e, f⟩
    exact ⟨(i, j), ⟨a, b⟩, o, ⟨sp, c, d, e⟩, f⟩

/-- A particle that is listed once is listed at one place. -/
theorem once_at {E : Env} {ids : List Nat} {D : Doms} (hD : ∀ i j, i < E.domR → j < E.domZ → (D i j).map Sp.id = ids) (h : (ids.flatMap (tagsOf E D)).Nodup)
    {i j i' j' : Nat} (hi : i < E.domR) (hj : j < E.domZ) (hi' : i' < E.domR) (hj' : j' < E.domZ) {sp sp' : Sp} (hs : sp ∈ D i j)
    (hs' : sp' ∈ D i' j') {o o' : Prt} (ho : o ∈ sp.parts) (ho' : o' ∈ sp'.parts) (e : o.tag = o'.tag) : i = i' ∧ j = j' ∧ sp.id = sp'.id := by
  have m : sp.id ∈ ids := by rw [← hD i j hi hj]; exact List.mem_map_of_mem hs
  have m' : sp'.id ∈ ids := by rw [← hD i' j' hi' hj']; exact List.mem_map_of_mem hs'
  rw [List.nodup_flatMap] at h
  obtain ⟨h1, h2⟩ := h
  have t1 : o.tag ∈ tagsOf E D sp.id := mem_tags.mpr ⟨i, j, hi, hj, sp, hs, rfl, o, ho, rfl⟩
  have t2 : o.tag ∈ tagsOf E D sp'.id := mem_tags.mpr ⟨i', j', hi', hj', sp', hs', rfl, o', ho', e.symm⟩
  have eid : sp.id = sp'.id := by
    by_contra c
    exact List.disjoint_left.mp (disjoint_of h2 m m' c) t1 t2
  have h3 := h1 _ m
  unfold tagsOf at h3
  rw [List.nodup_flatMap] at h3
  obtain ⟨_, h4⟩ := h3
  have : (i, j) = (i', j') := by
    by_contra c
    refine List.disjoint_left.mp (disjoint_of h4 (mem_allDoms.mpr ⟨hi, hj⟩) (mem_allDoms.mpr ⟨hi', hj'⟩) c)
      (List.mem_map_of_mem (mem_parts.mpr ⟨sp, hs, rfl, ho⟩)) ?_
    rw [e]
    exact List.mem_map_of_mem (mem_parts.mpr ⟨sp', hs', eid.symm, ho'⟩)
  exact ⟨congrArg Prod.fst this, congrArg Prod.snd this, eid⟩

theorem once_place {E : Env} {ids : List Nat} {D : Doms} (hD : ∀ i j, (D i j).map Sp.id = ids) (h : (ids.flatMap (tagsOf E D)).Nodup)
    {i j i' j' : Nat} (hi : i < E.domR) (hj : j < E.domZ) (hi' : i' < E.domR) (hj' : j' < E.domZ) {sp sp' : Sp} (hs : sp ∈ D i j)
    (hs' : sp' ∈ D i' j') {o o' : Prt} (ho : o ∈ sp.parts) (ho' : o' ∈ sp'.parts) (e : o.tag = o'.tag) : i = i' ∧ j = j' ∧ sp.id = sp'.id :=
  once_at (fun i j _ _ => hD i j) h hi hj hi' hj' hs hs' ho ho' e

/-! ### Fields -/

theorem low_add {n d i : Nat} {x : Int} (hd : 1 ≤ d) (h2 : 2 * d ≤ n) (h4 : d ∣ n) (h0 : 0 ≤ x) (h1 : x < hgt n d i) :
    ((low n d i : Int) + x).toNat / (n / d) = i := by
  rw [hgt_const hd h4] at h1
  rw [low_mul hd h4]
  have hp : 0 < n / d := Nat.div_pos (by omega) hd
  have : ((i * (n / d) : Nat) : Int) + x = ((i * (n / d) + x.toNat : Nat) : Int) := by omega
  rw [this, Int.toNat_natCast, Nat.mul_comm, Nat.mul_add_div hp, Nat.div_eq_of_lt (by omega), Nat.add_zero]

/-- The field step of the domains, if their fields fit together. -/
theorem maxwell_ok (p : Par ℝ) {domR domZ : Nat} (hd : Divided p domR domZ) {M : Solvers ℝ} {m : Mem ℝ}
    (W : ∀ c, c.isSource = false → Windows p domR domZ c M m) :
    ∃ M1 m1, solveMaxwell (domPar p domR domZ) domR domZ M = .ok M1 ∧ (∀ c, c.isSource = false → Windows p domR domZ c M1 m1) ∧
      ∀ i j c x y, i < domR → j < domZ → c.isSource = true → M1 i j c x y = M i j c x y := by
  have e : (fun i j => setSources (M i j) (M i j)) = M := by
    funext i j c x y
    exact ite_self _
  obtain ⟨M1, m1, e1, _, W1, k⟩ := C62_step p hd W (loc := fun i j => M i j)
    (src := fun c X Y => M (X.toNat / (p.nr / domR)) (Y.toNat / (p.nz / domZ)) c (X - low p.nr domR (X.toNat / (p.nr / domR)))
      (Y - low p.nz domZ (Y.toNat / (p.nz / domZ)))) (by
    rintro i j x y c _ ⟨hi, hj, ⟨x0, x1⟩, y0, y1⟩
    dsimp only
    rw [low_add hd.r1 hd.r2 hd.r4 x0 x1, low_add hd.z1 hd.z2 hd.z4 y0 y1, add_sub_cancel_left, add_sub_cancel_left])
  rw [e] at e1
  exact ⟨M1, m1, e1, W1, k⟩

section
variable {E : Env} (h : Chamber E)
include h

theorem geom_good {i j : Nat} (hi : i < E.domR) (hj : j < E.domZ) : (E.geom i j).Good := (dom_good h.div E.e h.good hi hj).geo

/-- A particle in its place can be pushed. -/
theorem push_ok (hk : Pusher.Relativistic E.kind) {i j : Nat} (hi : i < E.domR) (hj : j < E.domZ) {a : Part ℝ} (ha : InPlace E i j a)
    (id : Nat) (m : Mem ℝ) :
    ∃ v, (∀ junk, Pusher.push E.kind (E.pushPar id) junk E.e.pi (E.geom i j) m a.posR a.posZ (vel a) = .ok v) ∧ v.length2 < E.c ^ 2 := by
  have e : (E.geom i j).dr / 2 ≤ a.posR := by
    rw [geom_eq h]
    exact ha.r1
  have c1 := Interp.C23_electric_partial h.good.pi (geom_good h hi hj) ha.dom e m
  have c2 := Interp.C23_magnetic h.good.pi (geom_good h hi hj) ha.dom e m
  dsimp only at c1
  have c1 : Interp.getE E.e.pi (E.geom i j) m a.posR a.posZ = _ := c1
  have c2 : Interp.getH E.e.pi (E.geom i j) m a.posR a.posZ = _ := c2
  obtain ⟨v, e1, e2⟩ := Pusher.C72_step E.kind hk (E.pushPar id) true h.c _ _ (vel a) ha.slow
  refine ⟨v, fun junk => ?_, e2⟩
  unfold Pusher.push
  rw [c1, Res.ok_bind, c2, Res.ok_bind]
  have : ∀ e b, Pusher.pushV E.kind (E.pushPar id) junk e b (vel a) = Pusher.pushV E.kind (E.pushPar id) true e b (vel a) := by
    intro e b
    rcases hk with k | k | k <;> rw [k] <;> rfl
  rw [this]
  exact e1

/-! ### Hand-over -/

theorem asInt_small {n : Nat} (hn : n < 2 ^ 31) : asInt n = n := by
  unfold asInt
  omega

/-- Cell numbers after the move. -/
theorem landed_cells {i j : Nat} {a : Part ℝ} {v : Vec3 ℝ} (ha : InPlace E i j a) (hv : v.length2 < E.c ^ 2) :
    (0 ≤ ⌊(landed E a v).posR / E.p.dr⌋ ∧ ⌊(landed E a v).posR / E.p.dr⌋ < E.p.nr ∧
      ((landed E a v).cellR : Int) = ⌊(landed E a v).posR / E.p.dr⌋ ∧ asInt (landed E a v).cellR = ⌊(landed E a v).posR / E.p.dr⌋) ∧
    0 ≤ ⌊(landed E a v).posZ / E.p.dz⌋ ∧ ⌊(landed E a v).posZ / E.p.dz⌋ < E.p.nz ∧
      ((landed E a v).cellZ : Int) = ⌊(landed E a v).posZ / E.p.dz⌋ ∧ asInt (landed E a v).cellZ = ⌊(landed E a v).posZ / E.p.dz⌋ := by
  have dr : 0 < E.p.dr := h.good.geo.dr
  have dz : 0 < E.p.dz := h.good.geo.dz
  have gr := h.div.r3
  have gz := h.div.z3
  obtain ⟨⟨s1, s2, _⟩, s3, s4, _⟩ := landed_range h ha hv
  obtain ⟨p1, p2, _, p4⟩ := floor_cells h (le_trans (by linarith) s1) E.p.dr E.p.nr dr (by omega) s2
  obtain ⟨q1, q2, _, q4⟩ := floor_cells h (le_trans (by linarith) s3) E.p.dz E.p.nz dz (by omega) s4
  have p5 : ((landed E a v).cellR : Int) = ⌊(landed E a v).posR / E.p.dr⌋ := p4
  have q5 : ((landed E a v).cellZ : Int) = ⌊(landed E a v).posZ / E.p.dz⌋ := q4
  exact ⟨⟨p1, p2, p5, by rw [asInt_small h (by omega), p5]⟩, q1, q2, q5, by rw [asInt_small h (by omega), q5]⟩

/-- The move does not make a particle faster. -/
theorem landed_speed {i j : Nat} {a : Part ℝ} {v : Vec3 ℝ} (ha : InPlace E i j a) : (vel (landed E a v)).length2 = v.length2 := by
  have hs : ((a.posPhi + v.y * E.p.dt) / landR E a v) * ((a.posPhi + v.y * E.p.dt) / landR E a v) ≤ 1 := by
    by_cases c : landR E a v = 0
    · rw [c, div_zero]
      norm_num
    · have n : 0 ≤ (a.posR + v.x * E.p.dt) ^ 2 + (a.posPhi + v.y * E.p.dt) ^ 2 := by positivity
      have e : landR E a v ^ 2 = (a.posR + v.x * E.p.dt) ^ 2 + (a.posPhi + v.y * E.p.dt) ^ 2 := Real.sq_sqrt n
      have pos : 0 < landR E a v ^ 2 := by positivity
      rw [← pow_two, div_pow, div_le_one pos, e]
      nlinarith [sq_nonneg (a.posR + v.x * E.p.dt)]
  have m1 : Part.mirV true true E.p.dr (E.p.nr * E.p.dr) (landR E a v) v.x ^ 2 = v.x ^ 2 := Part.mirV_sq
  have m2 : Part.mirV true true E.p.dz (E.p.nz * E.p.dz) (landZ E a v) v.z ^ 2 = v.z ^ 2 := Part.mirV_sq
  unfold landed vel Vec3.length2
  dsimp only
  generalize (a.posPhi + v.y * E.p.dt) / landR E a v = s at hs ⊢
  have q := Real.sq_sqrt (show 0 ≤ 1 - s * s by linarith)
  generalize Real.sqrt (1 - s * s) = t at q ⊢
  generalize Part.mirV true true E.p.dr (E.p.nr * E.p.dr) (landR E a v) v.x = vr at m1 ⊢
  generalize Part.mirV true true E.p.dz (E.p.nz * E.p.dz) (landZ E a v) v.z = vz at m2 ⊢
  linear_combination (vr ^ 2 + v.y ^ 2) * q + m1 + m2

theorem landed_place {i j i' j' : Nat} {a : Part ℝ} {v : Vec3 ℝ} (ha : InPlace E i j a) (hv : v.length2 < E.c ^ 2)
    (o1 : (low E.p.nr E.domR i' : Int) ≤ ⌊(landed E a v).posR / E.p.dr⌋ ∧
      ⌊(landed E a v).posR / E.p.dr⌋ < ((low E.p.nr E.domR i' + hgt E.p.nr E.domR i' : Nat) : Int))
    (o2 : (low E.p.nz E.domZ j' : Int) ≤ ⌊(landed E a v).posZ / E.p.dz⌋ ∧
      ⌊(landed E a v).posZ / E.p.dz⌋ < ((low E.p.nz E.domZ j' + hgt E.p.nz E.domZ j' : Nat) : Int)) :
    InPlace E i' j' (landed E a v) := by
  have dr : 0 < E.p.dr := h.good.geo.dr
  have dz : 0 < E.p.dz := h.good.geo.dz
  obtain ⟨⟨s1, s2, _⟩, s3, s4, _⟩ := landed_range h ha hv
  obtain ⟨⟨_, _, p3, _⟩, _, _, q3, _⟩ := landed_cells h ha hv
  refine ⟨rfl, ?_, s1, s2, s3, s4, by rw [landed_speed h ha]; exact hv, p3, q3⟩
  rw [geom_eq h]
  refine ⟨?_, ?_, ?_, ?_⟩
  · have := Int.le_floor.mp o1.1
    rw [le_div_iff₀ dr] at this
    exact_mod_cast this
  · have := Int.floor_lt.mp o1.2
    rw [div_lt_iff₀ dr] at this
    exact_mod_cast this
  · have := Int.le_floor.mp o2.1
    rw [le_div_iff₀ dz] at this
    exact_mod_cast this
  · have := Int.floor_lt.mp o2.2
    rw [div_lt_iff₀ dz] at this
    exact_mod_cast this

/-- The rectangle of a domain. -/
theorem dims_eq (i j : Nat) : domDims (geoOf E.p E.domR E.domZ) i j =
    ⟨low E.p.nr E.domR i, low E.p.nz E.domZ j, low E.p.nr E.domR (i + 1), low E.p.nz E.domZ (j + 1)⟩ := by
  show (⟨low E.p.nr E.domR i + E.p.r0, low E.p.nz E.domZ j + 0, low E.p.nr E.domR (i + 1) + E.p.r0, low E.p.nz E.domZ (j + 1) + 0⟩ : CellDims) = _
  rw [h.r0]
  rfl

theorem low_hgt {n d : Nat} (hd : 1 ≤ d) (h2 : 2 * d ≤ n) (i : Nat) : low n d i + hgt n d i = low n d (i + 1) := by
  have := low_step hd h2 i
  unfold hgt
  omega

/-- Every row has one domain. -/
theorem owner {n d : Nat} (hd : 1 ≤ d) (h2 : 2 * d ≤ n) (h4 : d ∣ n) {x : Int} (h0 : 0 ≤ x) (h1 : x < n) :
    ∃ i, i < d ∧ ∀ i', ((low n d i' : Int) ≤ x ∧ x < (low n d (i' + 1) : Int)) ↔ i' = i := by
  have hp : 0 < n / d := Nat.div_pos (by omega) hd
  have e : d * (n / d) = n := Nat.mul_div_cancel' h4
  refine ⟨x.toNat / (n / d), ?_, fun i' => ?_⟩
  · rw [Nat.div_lt_iff_lt_mul hp, e]
    omega
  · rw [low_mul hd h4, low_mul hd h4]
    constructor
    · rintro ⟨k1, k2⟩
      symm
      apply Nat.div_eq_of_lt_le
      · omega
      · omega
    · rintro rfl
      have a1 := Nat.div_mul_le_self x.toNat (n / d)
      have a2 := Nat.lt_div_mul_add (a := x.toNat) hp
      rw [Nat.add_mul, Nat.one_mul]
      omega

/-- The hand-over after the move: nothing is lost, everything is in its place. -/
theorem handover {ids : List Nat} (nd : ids.Nodup) {S : State} (A : Alive E ids S) {heap : Nat → Part ℝ}
    (H : ∀ i j, i < E.domR → j < E.domZ → ∀ sp ∈ S.D i j, ∀ o ∈ sp.parts, ∃ v, v.length2 < E.c ^ 2 ∧ heap o.tag = landed E (S.heap o.tag) v) :
    ∃ D', collect (geoOf E.p E.domR E.domZ) (cellsOf heap S.D) = .ok D' ∧ (∀ i j, (D' i j).map Sp.id = ids) ∧
      (∀ id ∈ ids, (tagsOf E D' id).Perm (tagsOf E S.D id)) ∧
      ∀ i j, i < E.domR → j < E.domZ → ∀ sp ∈ D' i j, ∀ o ∈ sp.parts, InPlace E i j (heap o.tag) := by
  have g1 := h.div.r1
  have g2 := h.div.r2
  have g3 := h.div.z1
  have g4 := h.div.z2
  obtain ⟨D', e, k1, k2⟩ := C09_handover_partial (geoOf E.p E.domR E.domZ) (show 0 < E.p.nr by omega) (show 0 < E.p.nz by omega)
    h.div.r4 h.div.z4 ⟨h.r0, rfl⟩ ids nd (cellsOf heap S.D) (fun i j => by
      rw [← A.species i j]
      unfold cellsOf
      rw [List.map_map]
      rfl)
  have cells : ∀ i j, i < E.domR → j < E.domZ → ∀ sp ∈ S.D i j, ∀ o ∈ sp.parts,
      (0 ≤ asInt (heap o.tag).cellR ∧ asInt (heap o.tag).cellR < E.p.nr ∧ asInt (heap o.tag).cellR = ⌊(heap o.tag).posR / E.p.dr⌋) ∧
      0 ≤ asInt (heap o.tag).cellZ ∧ asInt (heap o.tag).cellZ < E.p.nz ∧ asInt (heap o.tag).cellZ = ⌊(heap o.tag).posZ / E.p.dz⌋ := by
    intro i j hi hj sp hsp o ho
    obtain ⟨v, hv, e⟩ := H i j hi hj sp hsp o ho
    obtain ⟨⟨p1, p2, _, p4⟩, q1, q2, _, q4⟩ := landed_cells h (A.place i j hi hj sp hsp o ho) hv
    rw [e, p4, q4]
    exact ⟨⟨p1, p2, rfl⟩, q1, q2, rfl⟩
  refine ⟨D', e, k1, ?_, ?_⟩
  · intro id hid
    let l : List Prt := (allDoms (geoOf E.p E.domR E.domZ)).flatMap fun q => SMB.parts (cellsOf heap S.D) q.1 q.2 id
    have tl : tagsOf E S.D id = l.map (·.tag) := by
      unfold tagsOf
      rw [List.map_flatMap]
      refine List.flatMap_congr fun q _ => ?_
      rw [parts_cells, List.map_map]
      rfl
    have own : ((allDoms (geoOf E.p E.domR E.domZ)).flatMap fun q => l.filter fun o => (domDims (geoOf E.p E.domR E.domZ) q.1 q.2).Owns o).Perm l := by
      refine split_perm _ (nodup_idx2 _ _ _ _) (fun q o => decide ((domDims (geoOf E.p E.domR E.domZ) q.1 q.2).Owns o)) l ?_
      intro b hb
      obtain ⟨q, hq, hb⟩ := List.mem_flatMap.mp hb
      obtain ⟨hi, hj⟩ := mem_allDoms.mp hq
      rw [parts_cells] at hb
      obtain ⟨o, ho, rfl⟩ := List.mem_map.mp hb
      obtain ⟨sp, hsp, _, ho⟩ := mem_parts.mp ho
      obtain ⟨⟨c1, c2, _⟩, c3, c4, _⟩ := cells q.1 q.2 hi hj sp hsp o ho
      obtain ⟨i', hi', u1⟩ := owner h h.div.r1 h.div.r2 h.div.r4 c1 c2
      obtain ⟨j', hj', u2⟩ := owner h h.div.z1 h.div.z2 h.div.z4 c3 c4
      refine ⟨(i', j'), mem_allDoms.mpr ⟨hi', hj'⟩, fun q' _ => ?_⟩
      rw [decide_eq_true_eq, dims_eq h]
      unfold CellDims.Owns
      dsimp only
      rw [u1, u2, Prod.ext_iff]
    rw [tl]
    refine List.Perm.trans ?_ (own.map _)
    unfold tagsOf
    rw [List.map_flatMap]
    refine List.Perm.flatMap_left _ fun q hq => List.Perm.map _ ?_
    obtain ⟨hi, hj⟩ := mem_allDoms.mp hq
    refine (k2 q.1 q.2 id hi hj hid).trans ?_
    rw [List.filter_flatMap]
  · intro i j hi hj sp hsp o ho
    have hid : sp.id ∈ ids := by rw [← k1 i j]; exact List.mem_map_of_mem hsp
    have m := (k2 i j sp.id hi hj hid).mem_iff.mp (mem_parts.mpr ⟨sp, hsp, rfl, ho⟩)
    obtain ⟨q, hq, m⟩ := List.mem_flatMap.mp m
    obtain ⟨m, own⟩ := List.mem_filter.mp m
    rw [decide_eq_true_eq, dims_eq h] at own
    rw [parts_cells] at m
    obtain ⟨o', ho', rfl⟩ := List.mem_map.mp m
    obtain ⟨sp', hsp', _, ho'⟩ := mem_parts.mp ho'
    obtain ⟨hi', hj'⟩ := mem_allDoms.mp hq
    obtain ⟨⟨_, _, c1⟩, _, _, c2⟩ := cells q.1 q.2 hi' hj' sp' hsp' o' ho'
    obtain ⟨v, hv, e⟩ := H q.1 q.2 hi' hj' sp' hsp' o' ho'
    unfold CellDims.Owns at own
    dsimp only at own ⊢
    rw [c1, c2, e] at own
    rw [e]
    refine landed_place h (A.place q.1 q.2 hi' hj' sp' hsp' o' ho') hv ?_ ?_
    · rw [low_hgt h h.div.r1 h.div.r2]; exact own.1
    · rw [low_hgt h h.div.z1 h.div.z2]; exact own.2

/-! ### Currents -/

theorem floor_near {x y d : ℝ} (hd : 0 < d) (hxy : |x - y| < d) : ⌊y / d⌋ - 1 ≤ ⌊x / d⌋ ∧ ⌊x / d⌋ ≤ ⌊y / d⌋ + 1 := by
  rw [abs_lt] at hxy
  have a : y / d - 1 ≤ x / d := by rw [sub_le_iff_le_add, div_add_one hd.ne', div_le_div_iff_of_pos_right hd]; linarith
  have b : x / d ≤ y / d + 1 := by rw [div_add_one hd.ne', div_le_div_iff_of_pos_right hd]; linarith
  constructor
  · rw [← Int.floor_sub_one]
    exact Int.floor_le_floor a
  · rw [← Int.floor_add_one]
    exact Int.floor_le_floor b

/-- What a particle deposits after the move is well defined. -/
theorem deposit_ok {i j i' j' : Nat} {a : Part ℝ} {v : Vec3 ℝ} (ha : InPlace E i j a) (hv : v.length2 < E.c ^ 2)
    (hb : InPlace E i' j' (landed E a v)) (c : ℝ) :
    (depositOf c (landed E a v)).Bound (domCtx E.p E.domR E.domZ E.e i' j').g ∧
    (depositOf c (landed E a v)).NearCell (domCtx E.p E.domR E.domZ E.e i' j').g := by
  have dr : 0 < E.p.dr := h.good.geo.dr
  have dz : 0 < E.p.dz := h.good.geo.dz
  obtain ⟨⟨_, _, s1⟩, _, _, s2⟩ := landed_range h ha hv
  have g := geom_eq h i' j'
  have g : (domCtx E.p E.domR E.domZ E.e i' j').g = _ := g
  refine ⟨⟨hb.dom, by have := hb.r1; show 0 < (landed E a v).posR; linarith, by have := ha.r1; show 0 < a.posR; linarith, ?_, ?_⟩, ?_⟩
  · rw [g]; exact hb.cellR
  · rw [g]; exact hb.cellZ
  · rw [g]
    exact ⟨floor_near h dr s1, floor_near h dz s2⟩

/-! ### The step -/

/-- The pushes of all particles are well defined and give velocities below the speed of light. -/
def Pushable (E : Env) (S : State) : Prop :=
  ∀ M1, solveMaxwell (domPar E.p E.domR E.domZ) E.domR E.domZ S.M = .ok M1 → ∀ i j, i < E.domR → j < E.domZ → ∀ sp ∈ S.D i j, ∀ o ∈ sp.parts,
    ∃ v, (∀ junk, Pusher.push E.kind (E.pushPar sp.id) junk E.e.pi (E.geom i j) (M1 i j) (S.heap o.tag).posR (S.heap o.tag).posZ
      (vel (S.heap o.tag)) = .ok v) ∧ v.length2 < E.c ^ 2

omit h in
theorem pushable (h : Chamber E) (hk : Pusher.Relativistic E.kind) {ids : List Nat} {S : State} (A : Alive E ids S) : Pushable E S :=
  fun M1 _ i j hi hj sp hsp o ho => push_ok h hk hi hj (A.place i j hi hj sp hsp o ho) sp.id (M1 i j)

/-- What one step does to a particle. -/
theorem moves_iff_of {ids : List Nat} {S : State} (A : Alive E ids S) (V : Pushable E S) (B : NoBorder E S) {M1 : Solvers ℝ}
    (e1 : solveMaxwell (domPar E.p E.domR E.domZ) E.domR E.domZ S.M = .ok M1) {i j : Nat} (hi : i < E.domR) (hj : j < E.domZ) {sp : Sp}
    (hsp : sp ∈ S.D i j) {o : Prt} (ho : o ∈ sp.parts) :
    ∃ v, (∀ junk, Pusher.push E.kind (E.pushPar sp.id) junk E.e.pi (E.geom i j) (M1 i j) (S.heap o.tag).posR (S.heap o.tag).posZ
        (vel (S.heap o.tag)) = .ok v) ∧ v.length2 < E.c ^ 2 ∧
      ∀ b, Moves E i j (M1 i j) sp.id (S.heap o.tag) b ↔ b = landed E (S.heap o.tag) v := by
  have ha := A.place i j hi hj sp hsp o ho
  obtain ⟨v, p1, p2⟩ := V M1 e1 i j hi hj sp hsp o ho
  refine ⟨v, p1, p2, fun b => ?_⟩
  have adv := advance_iff h hi hj ha p2 (B M1 e1 i j hi hj sp hsp o ho true v (p1 true)) b
  constructor
  · rintro ⟨junk, v', e', ad⟩
    obtain rfl := Res.ok.inj ((p1 junk).symm.trans e')
    exact adv.mp ad
  · intro e
    exact ⟨true, v, p1 true, adv.mpr e⟩

/-- What one step does to a particle. -/
theorem moves_iff (hk : Pusher.Relativistic E.kind) {ids : List Nat} {S : State} (A : Alive E ids S) (B : NoBorder E S) {M1 : Solvers ℝ}
    (e1 : solveMaxwell (domPar E.p E.domR E.domZ) E.domR E.domZ S.M = .ok M1) {i j : Nat} (hi : i < E.domR) (hj : j < E.domZ) {sp : Sp}
    (hsp : sp ∈ S.D i j) {o : Prt} (ho : o ∈ sp.parts) :
    ∃ v, (∀ junk, Pusher.push E.kind (E.pushPar sp.id) junk E.e.pi (E.geom i j) (M1 i j) (S.heap o.tag).posR (S.heap o.tag).posZ
        (vel (S.heap o.tag)) = .ok v) ∧ v.length2 < E.c ^ 2 ∧
      ∀ b, Moves E i j (M1 i j) sp.id (S.heap o.tag) b ↔ b = landed E (S.heap o.tag) v :=
  moves_iff_of h A (pushable h hk A) B e1 hi hj hsp ho

theorem step_all_of (hz : Sound E.dist) {ids : List Nat} (nd : ids.Nodup) {S : State}
    (A : Alive E ids S) (V : Pushable E S) (B : NoBorder E S) :
    ∃ S', (∀ T, Step E S T ↔ T = S') ∧ Alive E ids S' ∧ (∀ id ∈ ids, (tagsOf E S'.D id).Perm (tagsOf E S.D id)) ∧
      Housed E.p E.domR E.domZ E.e (depositsOf E S'.heap S'.D) := by
  obtain ⟨m, W⟩ := A.fields
  obtain ⟨M1, m1, e1, W1, keep⟩ := maxwell_ok E.p h.div W
  -- the particles
  have P : ∀ t, ∃ b, (∀ i j, i < E.domR → j < E.domZ → ∀ sp ∈ S.D i j, ∀ o ∈ sp.parts, o.tag = t →
      ∃ v, v.length2 < E.c ^ 2 ∧ b = landed E (S.heap o.tag) v ∧ ∀ b', Moves E i j (M1 i j) sp.id (S.heap o.tag) b' ↔ b' = b) ∧
      ((∀ i j, i < E.domR → j < E.domZ → ∀ sp ∈ S.D i j, ∀ o ∈ sp.parts, o.tag ≠ t) → b = S.heap t) := by
    intro t
    by_cases c : ∃ i j, i < E.domR ∧ j < E.domZ ∧ ∃ sp ∈ S.D i j, ∃ o ∈ sp.parts, o.tag = t
    · obtain ⟨i, j, hi, hj, sp, hsp, o, ho, rfl⟩ := c
      obtain ⟨v, p1, p2, p3⟩ := moves_iff_of h A V B e1 hi hj hsp ho
      refine ⟨landed E (S.heap o.tag) v, ?_, fun k => absurd rfl (k i j hi hj sp hsp o ho)⟩
      intro i' j' hi' hj' sp' hsp' o' ho' et
      obtain ⟨rfl, rfl, ei⟩ := once_place A.species A.once hi' hj' hi hj hsp' hsp ho' ho et
      exact ⟨v, p2, by rw [et], by rw [et, ei]; exact p3⟩
    · refine ⟨S.heap t, ?_, fun _ => rfl⟩
      intro i j hi hj sp hsp o ho et
      exact absurd ⟨i, j, hi, hj, sp, hsp, o, ho, et⟩ c
  choose heap hp hn using P
  obtain ⟨D', e2, k1, k2, k3⟩ := handover h nd A (heap := heap) (fun i j hi hj sp hsp o ho => by
    obtain ⟨v, a, b, _⟩ := hp o.tag i j hi hj sp hsp o ho rfl
    exact ⟨v, a, b⟩)
  -- what is deposited
  have housed : Housed E.p E.domR E.domZ E.e (depositsOf E heap D') := by
    intro a b ha hb q hq
    unfold depositsOf at hq
    obtain ⟨sp, hsp, hq⟩ := List.mem_flatMap.mp hq
    obtain ⟨o, ho, rfl⟩ := List.mem_map.mp hq
    have hid : sp.id ∈ ids := by rw [← k1 a b]; exact List.mem_map_of_mem hsp
    have t := (k2 sp.id hid).mem_iff.mp (mem_tags.mpr ⟨a, b, ha, hb, sp, hsp, rfl, o, ho, rfl⟩)
    obtain ⟨i', j', hi', hj', sp', hsp', _, o', ho', et⟩ := mem_tags.mp t
    obtain ⟨v, p1, p2, _⟩ := hp o.tag i' j' hi' hj' sp' hsp' o' ho' et
    have place := k3 a b ha hb sp hsp o ho
    rw [p2] at place ⊢
    exact deposit_ok h (A.place i' j' hi' hj' sp' hsp' o' ho') p1 place _
  obtain ⟨M', e3, kf⟩ := solve_sound hz E.p h.div E.e h.good _ housed M1
  refine ⟨⟨M', heap, D'⟩, ?_, ⟨k1, ?_, k3, m1, ?_⟩, k2, housed⟩
  · intro T
    constructor
    · rintro ⟨N1, f1, f2, f3, f4, f5⟩
      obtain rfl := Res.ok.inj (e1.symm.trans f1)
      have eh : T.heap = heap := by
        funext t
        by_cases c : ∃ i j, i < E.domR ∧ j < E.domZ ∧ ∃ sp ∈ S.D i j, ∃ o ∈ sp.parts, o.tag = t
        · obtain ⟨i, j, hi, hj, sp, hsp, o, ho, rfl⟩ := c
          obtain ⟨v, _, _, q⟩ := hp o.tag i j hi hj sp hsp o ho rfl
          exact (q _).mp (f2 i j hi hj sp hsp o ho)
        · have c' : ∀ i j, i < E.domR → j < E.domZ → ∀ sp ∈ S.D i j, ∀ o ∈ sp.parts, o.tag ≠ t :=
            fun i j hi hj sp hsp o ho et => c ⟨i, j, hi, hj, sp, hsp, o, ho, et⟩
          rw [f3 t c', hn t c']
      rw [eh] at f4 f5
      have eD := Res.ok.inj (f4.symm.trans e2)
      rw [eD] at f5
      have eM := Res.ok.inj (f5.symm.trans e3)
      cases T
      dsimp only at eh eD eM
      rw [eh, eD, eM]
    · rintro rfl
      refine ⟨M1, e1, ?_, fun t ht => hn t ht, e2, e3⟩
      intro i j hi hj sp hsp o ho
      obtain ⟨v, _, _, q⟩ := hp o.tag i j hi hj sp hsp o ho rfl
      exact (q _).mpr rfl
  · refine (List.Perm.nodup_iff ?_).mpr A.once
    exact List.Perm.flatMap_left _ fun id hid => k2 id hid
  · intro c hc i j x y ho
    have nj : c ≠ .jr ∧ c ≠ .jp ∧ c ≠ .jz := by
      refine ⟨?_, ?_, ?_⟩ <;> (rintro rfl; exact (nomatch hc))
    show (_ → M' i j c x y = _) ∧ (_ → M' i j c x y = 0)
    rw [kf i j c x y ho.1 ho.2.1 (by unfold isJ; tauto)]
    exact W1 c hc i j x y ho

theorem step_all (hk : Pusher.Relativistic E.kind) (hz : Sound E.dist) {ids : List Nat} (nd : ids.Nodup) {S : State}
    (A : Alive E ids S) (B : NoBorder E S) :
    ∃ S', (∀ T, Step E S T ↔ T = S') ∧ Alive E ids S' ∧ (∀ id ∈ ids, (tagsOf E S'.D id).Perm (tagsOf E S.D id)) ∧
      Housed E.p E.domR E.domZ E.e (depositsOf E S'.heap S'.D) :=
  step_all_of h hz nd A (pushable h hk A) B

end

end Pic
end Pico
