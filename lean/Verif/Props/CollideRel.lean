import Verif.Lemmas.CollideRel
import Verif.Props.CollideTA

/-! Properties C38 (SK98, P12) and C40. -/

set_option linter.unusedSectionVars false
set_option linter.unusedSimpArgs false
set_option linter.unusedVariables false

namespace Pico
namespace Coll

open Rel

/-! ### Steps of the two functions -/

theorem turned_of_delta {p d : Vec3 ℝ} {sT cT sP cP : ℝ} (h : skDelta p sT cT sP cP = .ok d) : turned p sT cT sP cP = .ok (p.add d) := by
  unfold skDelta at h
  unfold turned
  simp only at h ⊢
  split at h
  · exact absurd h (by simp)
  · rename_i h0
    injection h with h
    subst h
    rw [if_neg h0]
    congr 1
    unfold Vec3.add Vec3.zip
    apply vec_ext <;> dsimp only <;> ring

theorem neg3_sub (p d : Vec3 ℝ) : (neg3 p).sub d = neg3 (p.add d) := by
  unfold neg3 Vec3.sub Vec3.add Vec3.zip
  apply vec_ext <;> dsimp only <;> ring

theorem skAngle_one {gamma vcm vrel delta : ℝ} {a : ℝ × ℝ} (h : skAngle gamma vcm vrel delta = .ok a) : a.1 ^ 2 + a.2 ^ 2 = 1 := by
  unfold skAngle at h
  simp only at h
  split at h
  · split at h
    · exact absurd h (by simp)
    · injection h with h
      subst h
      dsimp only
      split <;> norm_num
  · injection h with h
    subst h
    exact Real.sin_sq_add_cos_sq _

/-- Outcome of `relSpeed` in the two functions. -/
theorem Good.rel {c ma mb : ℝ} {va vb : Vec3 ℝ} {f : Frame} (h : Good c ma mb va vb f) (hc : 0 < c) (hma : 0 < ma) (hmb : 0 < mb) (ha : Slow c va)
    (hb : Slow c vb) :
    relSpeed c ma mb f.paCm (f.p0aCm / ma / c) (f.p0bCm / mb / c) =
      c * f.paCm.length * (f.p0bCm - f.p0aCm) / (f.p0aCm * f.p0bCm + f.paCm.length2) :=
  relSpeed_eq hc hma hmb (h.momA hc hma ha).pos (h.momB hc hmb hb).pos

/-- P12 computes the Lorentz factors in the frame in another way, with the same result. -/
theorem Good.ga {c ma mb : ℝ} {va vb : Vec3 ℝ} {f : Frame} (h : Good c ma mb va vb f) (hc : 0 < c) (hma : 0 < ma) (hmb : 0 < mb) :
    (1 - va.dot (f.beta.smul c) / (c * c)) * rGamma c va * f.gamma = f.p0aCm / ma / c ∧
    (1 - vb.dot (f.beta.smul c) / (c * c)) * rGamma c vb * f.gamma = f.p0bCm / mb / c := by
  rw [h.p0a, h.p0b]
  unfold boost0 rMomentum rEnergy Vec3.dot Vec3.smul
  dsimp only
  constructor <;> field_simp <;> ring

/-- A relative speed that is not positive ends both functions. -/
theorem lorenz_rel {c ma mb E F : ℝ} {p : Vec3 ℝ} (hc : 0 < c) (hma : 0 < ma) (hmb : 0 < mb) (h1 : Mom c ma E p) (h2 : Mom c mb F p) :
    ∃ g, lorenzFactor c (c * p.length * (F - E) / (E * F + p.length2) * (c * p.length * (F - E) / (E * F + p.length2))) = .ok g ∧ 0 < g := by
  have k := relSpeed_abs hc hma hmb h1 h2
  have : c * p.length * (F - E) / (E * F + p.length2) * (c * p.length * (F - E) / (E * F + p.length2)) < c ^ 2 := by
    rw [← pow_two, ← sq_abs]
    exact pow_lt_pow_left₀ k (abs_nonneg _) two_ne_zero
  obtain ⟨g, e, g0, _⟩ := lorenz_lt hc this
  exact ⟨g, e, g0⟩

theorem rel_nonpos {c ma mb E F : ℝ} {p : Vec3 ℝ} (hc : 0 < c) (hmb : 0 < mb) (hm : mb ≤ ma) (h1 : Mom c ma E p) (h2 : Mom c mb F p) :
    c * p.length * (F - E) / (E * F + p.length2) ≤ 0 := by
  have := energy_le hc hmb hm h1 h2
  have l0 : 0 ≤ p.length := Real.sqrt_nonneg _
  have n := len2_nonneg p
  have hE := h1.pos
  have hF := h2.pos
  apply div_nonpos_of_nonpos_of_nonneg
  · exact mul_nonpos_of_nonneg_of_nonpos (by positivity) (by linarith)
  · positivity

theorem rel_pos {c ma mb E F : ℝ} {p : Vec3 ℝ} (hc : 0 < c) (hma : 0 < ma) (hm : ma < mb) (h1 : Mom c ma E p) (h2 : Mom c mb F p) (hp : 0 < p.length2) :
    0 < c * p.length * (F - E) / (E * F + p.length2) := by
  have := energy_lt hc hma hm h1 h2
  have l0 : 0 < p.length := Real.sqrt_pos.mpr hp
  have hE := h1.pos
  have hF := h2.pos
  have : 0 < F - E := by linarith
  positivity

/-- `skCore`, the cases. -/
theorem skCore_none {c mnzl ma mb delta phi : ℝ} {va vb : Vec3 ℝ} (hc : 0 < c) (hmb : 0 < mb) (hm : mb ≤ ma) (hz : 0 < mnzl)
    (ha : Slow c va) (hb : Slow c vb) (hP : (rMomentum c ma va).add (rMomentum c mb vb) ≠ ⟨0, 0, 0⟩) :
    skCore c mnzl ma mb delta phi va vb = .ok none := by
  have hma : 0 < ma := by linarith
  unfold skCore
  split
  · rfl
  · obtain ⟨f, e, g⟩ := comFrame_good hc hma hmb ha hb hP
    rw [e, Res.ok_bind]
    simp only [g.rel hc hma hmb ha hb]
    obtain ⟨gr, e2, _⟩ := lorenz_rel hc hma hmb (g.momA hc hma ha) (g.momB hc hmb hb).neg
    rw [e2, Res.ok_bind]
    have := rel_nonpos hc hmb hm (g.momA hc hma ha) (g.momB hc hmb hb).neg
    split
    · rfl
    · rw [if_pos (by linarith)]

theorem p12Core_none {c mnzl ma mb wa wb s12 U phi Ud : ℝ} {normal : Bool} {va vb : Vec3 ℝ} (hc : 0 < c) (hmb : 0 < mb) (hm : mb ≤ ma) (hz : 0 < mnzl)
    (ha : Slow c va) (hb : Slow c vb) (hP : (rMomentum c ma va).add (rMomentum c mb vb) ≠ ⟨0, 0, 0⟩) :
    p12Core c mnzl ma mb wa wb s12 U phi Ud normal va vb = .ok none := by
  have hma : 0 < ma := by linarith
  unfold p12Core
  split
  · rfl
  · obtain ⟨f, e, g⟩ := comFrame_good hc hma hmb ha hb hP
    rw [(rGamma_spec hc ha).2.2, Res.ok_bind, (rGamma_spec hc hb).2.2, Res.ok_bind, e, Res.ok_bind]
    simp only [(g.ga hc hma hmb).1, (g.ga hc hma hmb).2, g.rel hc hma hmb ha hb]
    obtain ⟨gr, e2, _⟩ := lorenz_rel hc hma hmb (g.momA hc hma ha) (g.momB hc hmb hb).neg
    rw [e2, Res.ok_bind]
    have := rel_nonpos hc hmb hm (g.momA hc hma ha) (g.momB hc hmb hb).neg
    split
    · rfl
    · rw [if_pos (by linarith)]

/-- With the lighter particle first and a small enough `mnzl` the functions go on. -/
theorem skCore_go {c ma mb : ℝ} {va vb : Vec3 ℝ} {f : Frame} (hc : 0 < c) (hma : 0 < ma) (hm : ma < mb)
    (ha : Slow c va) (hb : Slow c vb) (hne : va ≠ vb) (e : comFrame c ma mb va vb = .ok f) (hp : 0 < f.paCm.length2) :
    ∃ ε, 0 < ε ∧ ∀ mnzl, mnzl ≤ ε → ∀ delta phi, skCore c mnzl ma mb delta phi va vb =
      (skAngle f.gamma (Real.sqrt (f.beta.length2 * (c * c))) ε delta >>= fun a =>
        skDelta f.paCm a.1 a.2 (Real.sin phi) (Real.cos phi) >>= fun d =>
        .ok (some (toLab c ma f (f.paCm.add d) f.p0aCm, toLab c mb f ((neg3 f.paCm).sub d) f.p0bCm))) := by
  have hmb : 0 < mb := by linarith
  have g := comFrame_inv hc hma hmb ha hb e
  have rp := rel_pos hc hma hm (g.momA hc hma ha) (g.momB hc hmb hb).neg hp
  refine ⟨_, rp, fun mnzl hz delta phi => ?_⟩
  obtain ⟨gr, e2, g0⟩ := lorenz_rel hc hma hmb (g.momA hc hma ha) (g.momB hc hmb hb).neg
  unfold skCore
  rw [if_neg hne, e, Res.ok_bind]
  simp only [g.rel hc hma hmb ha hb]
  rw [e2, Res.ok_bind, if_neg (by positivity), if_neg (by linarith)]

theorem p12Core_go {c ma mb : ℝ} {va vb : Vec3 ℝ} {f : Frame} (hc : 0 < c) (hma : 0 < ma) (hm : ma < mb)
    (ha : Slow c va) (hb : Slow c vb) (hne : va ≠ vb) (e : comFrame c ma mb va vb = .ok f) (hp : 0 < f.paCm.length2) :
    ∃ ε, 0 < ε ∧ ∀ mnzl, mnzl ≤ ε → ∀ wa wb s12 U phi Ud, p12Core c mnzl ma mb wa wb s12 U phi Ud true va vb =
      (cosXi s12 U >>= fun cx =>
        if 1 - cx ^ 2 < 0 then .ub
        else turned f.paCm (Real.sqrt (1 - cx ^ 2)) cx (Real.sin phi) (Real.cos phi) >>= fun p =>
        .ok (some (if Ud < wa then toLab c ma f p f.p0aCm else Vec3.zero, if Ud < wb then toLab c mb f (neg3 p) f.p0bCm else Vec3.zero))) := by
  have hmb : 0 < mb := by linarith
  have g := comFrame_inv hc hma hmb ha hb e
  have rp := rel_pos hc hma hm (g.momA hc hma ha) (g.momB hc hmb hb).neg hp
  refine ⟨_, rp, fun mnzl hz wa wb s12 U phi Ud => ?_⟩
  obtain ⟨gr, e2, g0⟩ := lorenz_rel hc hma hmb (g.momA hc hma ha) (g.momB hc hmb hb).neg
  unfold p12Core
  rw [if_neg hne, (rGamma_spec hc ha).2.2, Res.ok_bind, (rGamma_spec hc hb).2.2, Res.ok_bind, e, Res.ok_bind]
  simp only [(g.ga hc hma hmb).1, (g.ga hc hma hmb).2, g.rel hc hma hmb ha hb]
  rw [e2, Res.ok_bind, if_neg (by positivity), if_neg (by linarith), if_neg (by simp)]

theorem skCore_head_on {c mnzl ma mb delta phi : ℝ} {va vb : Vec3 ℝ} (hc : 0 < c) (hma : 0 < ma) (hmb : 0 < mb) (ha : Slow c va) (hb : Slow c vb)
    (hne : va ≠ vb) (hP : (rMomentum c ma va).add (rMomentum c mb vb) = ⟨0, 0, 0⟩) : skCore c mnzl ma mb delta phi va vb = .ub := by
  unfold skCore
  rw [if_neg hne, comFrame_head_on hc hma hmb ha hb hP]
  rfl

theorem p12Core_head_on {c mnzl ma mb wa wb s12 U phi Ud : ℝ} {normal : Bool} {va vb : Vec3 ℝ} (hc : 0 < c) (hma : 0 < ma) (hmb : 0 < mb)
    (ha : Slow c va) (hb : Slow c vb) (hne : va ≠ vb) (hP : (rMomentum c ma va).add (rMomentum c mb vb) = ⟨0, 0, 0⟩) :
    p12Core c mnzl ma mb wa wb s12 U phi Ud normal va vb = .ub := by
  unfold p12Core
  rw [if_neg hne, (rGamma_spec hc ha).2.2, Res.ok_bind, (rGamma_spec hc hb).2.2, Res.ok_bind, comFrame_head_on hc hma hmb ha hb hP]
  rfl

/-! ### Conservation -/

theorem bind_ok {α β : Type _} {x : Res α} {f : α → Res β} {b : β} (h : (x >>= f) = .ok b) : ∃ a, x = .ok a ∧ f a = .ok b := by
  cases x with
  | ok a => exact ⟨a, rfl, h⟩
  | fatal => exact absurd h (by intro h; exact nomatch h)
  | ub => exact absurd h (by intro h; exact nomatch h)

theorem skCore_same {c mnzl ma mb delta phi : ℝ} {va vb : Vec3 ℝ} {r : Vec3 ℝ × Vec3 ℝ} (hc : 0 < c) (hma : 0 < ma) (hmb : 0 < mb)
    (ha : Slow c va) (hb : Slow c vb) (h : skCore c mnzl ma mb delta phi va vb = .ok (some r)) :
    Slow c r.1 ∧ Slow c r.2 ∧ SameTotals c ma mb va vb r.1 r.2 := by
  unfold skCore at h
  split at h
  · injection h with h; exact absurd h (by simp)
  · obtain ⟨f, e, h⟩ := bind_ok h
    have g := comFrame_inv hc hma hmb ha hb e
    simp only at h
    obtain ⟨gr, e2, h⟩ := bind_ok h
    split at h
    · injection h with h; exact absurd h (by simp)
    · split at h
      · injection h with h; exact absurd h (by simp)
      · obtain ⟨a, ea, h⟩ := bind_ok h
        obtain ⟨d, ed, h⟩ := bind_ok h
        injection h with h
        injection h with h
        subst h
        dsimp only
        rw [neg3_sub]
        exact scatter hc hma hmb ha hb g (turned_len (skAngle_one ea) (Real.sin_sq_add_cos_sq _) (turned_of_delta ed))

theorem p12Core_same {c mnzl ma mb wa wb s12 U phi Ud : ℝ} {normal : Bool} {va vb : Vec3 ℝ} {r : Vec3 ℝ × Vec3 ℝ} (hc : 0 < c) (hma : 0 < ma) (hmb : 0 < mb)
    (ha : Slow c va) (hb : Slow c vb) (h1 : Ud < wa) (h2 : Ud < wb) (h : p12Core c mnzl ma mb wa wb s12 U phi Ud normal va vb = .ok (some r)) :
    Slow c r.1 ∧ Slow c r.2 ∧ SameTotals c ma mb va vb r.1 r.2 := by
  unfold p12Core at h
  split at h
  · injection h with h; exact absurd h (by simp)
  · obtain ⟨ga, e, h⟩ := bind_ok h
    obtain ⟨gb, e, h⟩ := bind_ok h
    obtain ⟨f, e, h⟩ := bind_ok h
    have g := comFrame_inv hc hma hmb ha hb e
    simp only at h
    obtain ⟨gr, e2, h⟩ := bind_ok h
    split at h
    · injection h with h; exact absurd h (by simp)
    · split at h
      · injection h with h; exact absurd h (by simp)
      · split at h
        · injection h with h; exact absurd h (by simp)
        · obtain ⟨cx, ec, h⟩ := bind_ok h
          split at h
          · exact absurd h (by simp)
          · rename_i hcx
            obtain ⟨p, ep, h⟩ := bind_ok h
            injection h with h
            injection h with h
            subst h
            dsimp only
            refine scatter hc hma hmb ha hb g (turned_len ?_ (Real.sin_sq_add_cos_sq _) ep)
            rw [Real.sq_sqrt (by linarith)]
            ring

theorem SameTotals.symm {c ma mb : ℝ} {va vb va' vb' : Vec3 ℝ} (h : SameTotals c mb ma vb va vb' va') : SameTotals c ma mb va vb va' vb' := by
  unfold SameTotals at *
  have comm : ∀ a b : Vec3 ℝ, a.add b = b.add a := fun a b => by
    unfold Vec3.add Vec3.zip; apply vec_ext <;> dsimp only <;> ring
  rw [comm (rMomentum c ma va'), comm (rMomentum c ma va), h.1, add_comm (rEnergy c ma va'), add_comm (rEnergy c ma va), h.2]
  exact ⟨rfl, rfl⟩

/-- C38 for SK98, where the result is defined: for any two particles slower than light, any masses and weights, any
deflection and azimuth: total relativistic momentum and energy (of the two particles, per particle) are kept exactly, both
stay slower than light, and nothing but the velocities changes. -/
theorem C38_SK98_partial {c mnzl ma mb delta phi : ℝ} {pa pb qa qb : Part ℝ} (hc : 0 < c) (hma : 0 < ma) (hmb : 0 < mb)
    (ha : Slow c (vel pa)) (hb : Slow c (vel pb)) (h : collideSK c mnzl ma mb delta phi pa pb = .ok (qa, qb)) :
    Slow c (vel qa) ∧ Slow c (vel qb) ∧ SameTotals c ma mb (vel pa) (vel pb) (vel qa) (vel qb) ∧ OnlyVel pa qa ∧ OnlyVel pb qb := by
  have triv : Slow c (vel pa) ∧ Slow c (vel pb) ∧ SameTotals c ma mb (vel pa) (vel pb) (vel pa) (vel pb) ∧ OnlyVel pa pa ∧ OnlyVel pb pb :=
    ⟨ha, hb, ⟨rfl, rfl⟩, ⟨vel pa, rfl⟩, ⟨vel pb, rfl⟩⟩
  unfold collideSK at h
  split at h
  · exact absurd h (by simp)
  · split at h
    · obtain ⟨r, e, h⟩ := bind_ok h
      cases r with
      | none => injection h with h; injection h with h1 h2; subst h1 h2; exact triv
      | some r =>
        injection h with h
        injection h with h1 h2
        subst h1 h2
        obtain ⟨a, b, t⟩ := skCore_same hc hma hmb ha hb e
        exact ⟨a, b, t, ⟨_, rfl⟩, ⟨_, rfl⟩⟩
    · obtain ⟨r, e, h⟩ := bind_ok h
      cases r with
      | none => injection h with h; injection h with h1 h2; subst h1 h2; exact triv
      | some r =>
        injection h with h
        injection h with h1 h2
        subst h1 h2
        obtain ⟨a, b, t⟩ := skCore_same hc hmb hma hb ha e
        exact ⟨b, a, t.symm, ⟨_, rfl⟩, ⟨_, rfl⟩⟩

/-- C38 for P12, where the result is defined and the number of the rejection lies on the same side of both weights. -/
theorem C38_P12_partial {c mnzl ma mb s12 U phi Ud : ℝ} {normal : Bool} {pa pb qa qb : Part ℝ} (hc : 0 < c) (hma : 0 < ma) (hmb : 0 < mb)
    (ha : Slow c (vel pa)) (hb : Slow c (vel pb)) (hside : Ud < pa.weight ↔ Ud < pb.weight)
    (h : collideP12 c mnzl ma mb s12 U phi Ud normal pa pb = .ok (qa, qb)) :
    Slow c (vel qa) ∧ Slow c (vel qb) ∧ SameTotals c ma mb (vel pa) (vel pb) (vel qa) (vel qb) ∧ OnlyVel pa qa ∧ OnlyVel pb qb := by
  have triv : Slow c (vel pa) ∧ Slow c (vel pb) ∧ SameTotals c ma mb (vel pa) (vel pb) (vel pa) (vel pb) ∧ OnlyVel pa pa ∧ OnlyVel pb pb :=
    ⟨ha, hb, ⟨rfl, rfl⟩, ⟨vel pa, rfl⟩, ⟨vel pb, rfl⟩⟩
  unfold collideP12 at h
  split at h
  · exact absurd h (by simp)
  · split at h
    · obtain ⟨r, e, h⟩ := bind_ok h
      cases r with
      | none => injection h with h; injection h with h1 h2; subst h1 h2; exact triv
      | some r =>
        injection h with h
        injection h with h1 h2
        by_cases hU : Ud < pa.weight
        · have hU' := hside.mp hU
          rw [if_pos hU] at h1
          rw [if_pos hU'] at h2
          subst h1 h2
          obtain ⟨a, b, t⟩ := p12Core_same hc hma hmb ha hb hU hU' e
          exact ⟨a, b, t, ⟨_, rfl⟩, ⟨_, rfl⟩⟩
        · have hU' := fun hh => hU (hside.mpr hh)
          rw [if_neg hU] at h1
          rw [if_neg hU'] at h2
          subst h1 h2
          exact triv
    · obtain ⟨r, e, h⟩ := bind_ok h
      cases r with
      | none => injection h with h; injection h with h1 h2; subst h1 h2; exact triv
      | some r =>
        injection h with h
        injection h with h1 h2
        by_cases hU : Ud < pa.weight
        · have hU' := hside.mp hU
          rw [if_pos hU'] at h1
          rw [if_pos hU] at h2
          subst h1 h2
          obtain ⟨a, b, t⟩ := p12Core_same hc hmb hma hb ha hU' hU e
          exact ⟨b, a, t.symm, ⟨_, rfl⟩, ⟨_, rfl⟩⟩
        · have hU' := fun hh => hU (hside.mpr hh)
          rw [if_neg hU'] at h1
          rw [if_neg hU] at h2
          subst h1 h2
          exact triv

/-! ### Where the relativistic models fail -/

/-- C38 fails: two particles with opposite momenta get velocities that are not numbers. -/
theorem C38_head_on_fails {c mnzl ma mb delta phi s12 U Ud : ℝ} {normal : Bool} {pa pb : Part ℝ} (hc : 0 < c) (hma : 0 < ma) (hmb : 0 < mb)
    (ha : Slow c (vel pa)) (hb : Slow c (vel pb)) (hne : vel pa ≠ vel pb)
    (hP : (rMomentum c ma (vel pa)).add (rMomentum c mb (vel pb)) = ⟨0, 0, 0⟩) :
    collideSK c mnzl ma mb delta phi pa pb = .ub ∧ collideP12 c mnzl ma mb s12 U phi Ud normal pa pb = .ub := by
  have hP' : (rMomentum c mb (vel pb)).add (rMomentum c ma (vel pa)) = ⟨0, 0, 0⟩ := by
    rw [← hP]; unfold Vec3.add Vec3.zip; apply vec_ext <;> dsimp only <;> ring
  unfold collideSK collideP12
  rw [skCore_head_on hc hma hmb ha hb hne hP, skCore_head_on hc hmb hma hb ha hne.symm hP', p12Core_head_on hc hma hmb ha hb hne hP,
    p12Core_head_on hc hmb hma hb ha hne.symm hP']
  constructor
  · split
    · rfl
    · split <;> rfl
  · split
    · rfl
    · split <;> rfl

/-- Transverse components of the momentum in the frame. -/
theorem Good.trans {c ma mb : ℝ} {va vb : Vec3 ℝ} {f : Frame} (h : Good c ma mb va vb f) (hs : rEnergy c ma va + rEnergy c mb vb ≠ 0) :
    ∃ t, f.paCm.x = (rMomentum c ma va).x + ((rMomentum c ma va).x + (rMomentum c mb vb).x) * t ∧
      f.paCm.y = (rMomentum c ma va).y + ((rMomentum c ma va).y + (rMomentum c mb vb).y) * t := by
  have tx := congrArg Vec3.x h.tot
  have ty := congrArg Vec3.y h.tot
  rw [h.pa, boost_form]
  unfold Vec3.add Vec3.zip Vec3.smul at tx ty
  dsimp only at tx ty ⊢
  generalize rEnergy c ma va + rEnergy c mb vb = P0 at *
  refine ⟨(f.beta.dot (rMomentum c ma va) * ((f.gamma - 1) / f.beta.length2) + f.gamma * (-1 * rEnergy c ma va)) / P0, ?_, ?_⟩
  · rw [tx]; field_simp; ring
  · rw [ty]; field_simp; ring

theorem energy_sum {c ma mb : ℝ} {va vb : Vec3 ℝ} (hc : 0 < c) (hma : 0 < ma) (hmb : 0 < mb) (ha : Slow c va) (hb : Slow c vb) :
    rEnergy c ma va + rEnergy c mb vb ≠ 0 :=
  (add_pos (mom_of_slow hc hma ha).pos (mom_of_slow hc hmb hb).pos).ne'

theorem turned_axial {p : Vec3 ℝ} (hx : p.x = 0) (hy : p.y = 0) (sT cT sP cP : ℝ) : turned p sT cT sP cP = .ub ∧ skDelta p sT cT sP cP = .ub := by
  unfold turned skDelta
  rw [hx, hy]
  simp

/-- Two different axial velocities have a non-zero momentum in the frame. -/
theorem Good.len_pos {c ma mb : ℝ} {va vb : Vec3 ℝ} {f : Frame} (h : Good c ma mb va vb f) (hc : 0 < c) (hma : 0 < ma) (hmb : 0 < mb) (ha : Slow c va)
    (hb : Slow c vb) (hne : va ≠ vb) : 0 < f.paCm.length2 := by
  rcases (len2_nonneg f.paCm).lt_or_eq with h0 | h0
  · exact h0
  · exfalso
    -- both are at rest in the frame, so both move with its velocity
    have z : f.paCm = ⟨0, 0, 0⟩ := by
      rw [len2_eq] at h0
      have x := sq_nonneg f.paCm.x
      have y := sq_nonneg f.paCm.y
      have z := sq_nonneg f.paCm.z
      have ex := pow_eq_zero_iff (two_ne_zero) |>.mp (by linarith : f.paCm.x ^ 2 = 0)
      have ey := pow_eq_zero_iff (two_ne_zero) |>.mp (by linarith : f.paCm.y ^ 2 = 0)
      have ez := pow_eq_zero_iff (two_ne_zero) |>.mp (by linarith : f.paCm.z ^ 2 = 0)
      exact vec_ext ex ey ez
    have zb : boost f.beta f.gamma (-1) (rMomentum c mb vb) (rEnergy c mb vb) = ⟨0, 0, 0⟩ := by
      rw [h.pb, z]; unfold neg3; simp
    have key : ∀ (m : ℝ) (v : Vec3 ℝ), 0 < m → Slow c v → boost f.beta f.gamma (-1) (rMomentum c m v) (rEnergy c m v) = ⟨0, 0, 0⟩ → v = f.beta.smul c := by
      intro m v hm hv e
      have M := mom_of_slow hc hm hv
      rw [boost_form] at e
      simp only [Vec3.mk.injEq] at e
      obtain ⟨k, hk⟩ : ∃ k, k = (f.gamma - 1) / f.beta.length2 := ⟨_, rfl⟩
      rw [← hk] at e
      have R1 : k * f.beta.length2 = f.gamma - 1 := by rw [hk]; have := h.hb; field_simp
      have hg := h.hg
      have hb0 := h.hb
      -- the momentum is a multiple of `beta`
      obtain ⟨t, ht⟩ : ∃ t, t = -(f.beta.dot (rMomentum c m v) * k + f.gamma * (-1 * rEnergy c m v)) := ⟨_, rfl⟩
      have px : (rMomentum c m v).x = f.beta.x * t := by rw [ht]; linear_combination e.1
      have py : (rMomentum c m v).y = f.beta.y * t := by rw [ht]; linear_combination e.2.1
      have pz : (rMomentum c m v).z = f.beta.z * t := by rw [ht]; linear_combination e.2.2
      have d : f.beta.dot (rMomentum c m v) = f.beta.length2 * t := by
        unfold Vec3.dot Vec3.length2
        rw [px, py, pz]; ring
      rw [d] at ht
      have g0 := h.g0
      have tt : t = rEnergy c m v := by
        apply mul_left_cancel₀ g0.ne'
        linear_combination ht - t * R1
      rw [tt] at px py pz
      have r0 := (rGamma_spec hc hv).1
      unfold rMomentum rEnergy at px py pz
      dsimp only at px py pz
      have mr : m * rGamma c v ≠ 0 := by positivity
      unfold Vec3.smul
      apply vec_ext <;> dsimp only <;> apply mul_left_cancel₀ mr
      · linear_combination px
      · linear_combination py
      · linear_combination pz
    have h1 := key ma va hma ha (by rw [← h.pa]; exact z)
    have h2 := key mb vb hmb hb zb
    exact hne (h1.trans h2.symm)

/-- C38 fails: two particles that move along the axis, the lighter one with the smaller weight, get velocities that are not
numbers. -/
theorem C38_axial_fails {c ma mb : ℝ} {pa pb : Part ℝ} (hc : 0 < c) (hma : 0 < ma) (hm : ma < mb) (hw : 0 < pb.weight) (hww : pa.weight ≤ pb.weight)
    (ha : Slow c (vel pa)) (hb : Slow c (vel pb)) (hne : vel pa ≠ vel pb)
    (hxa : (vel pa).x = 0 ∧ (vel pa).y = 0) (hxb : (vel pb).x = 0 ∧ (vel pb).y = 0) :
    ∃ ε, 0 < ε ∧ ∀ mnzl, mnzl ≤ ε → ∀ delta phi s12 U Ud,
      collideSK c mnzl ma mb delta phi pa pb = .ub ∧ collideP12 c mnzl ma mb s12 U phi Ud true pa pb = .ub := by
  have hmb : 0 < mb := by linarith
  by_cases hP : (rMomentum c ma (vel pa)).add (rMomentum c mb (vel pb)) = ⟨0, 0, 0⟩
  · exact ⟨1, one_pos, fun mnzl _ delta phi s12 U Ud => C38_head_on_fails hc hma hmb ha hb hne hP⟩
  · obtain ⟨f, e, g⟩ := comFrame_good hc hma hmb ha hb hP
    have lp := g.len_pos hc hma hmb ha hb hne
    obtain ⟨e1, e1p, h1⟩ := skCore_go hc hma hm ha hb hne e lp
    obtain ⟨e2, e2p, h2⟩ := p12Core_go hc hma hm ha hb hne e lp
    obtain ⟨t, tx, ty⟩ := g.trans (energy_sum hc hma hmb ha hb)
    have px : f.paCm.x = 0 := by rw [tx]; unfold rMomentum; simp [hxa.1, hxb.1]
    have py : f.paCm.y = 0 := by rw [ty]; unfold rMomentum; simp [hxa.2, hxb.2]
    have le : pa.weight / pb.weight ≤ 1 := by rw [div_le_one hw]; exact hww
    refine ⟨min e1 e2, lt_min e1p e2p, fun mnzl hz delta phi s12 U Ud => ⟨?_, ?_⟩⟩
    · unfold collideSK
      rw [if_neg hw.ne', if_pos le, h1 mnzl (le_trans hz (min_le_left _ _))]
      have : ∀ (x : Res (ℝ × ℝ)), ((x >>= fun a => skDelta f.paCm a.1 a.2 (Real.sin phi) (Real.cos phi) >>= fun d =>
          (Res.ok (some (toLab c ma f (f.paCm.add d) f.p0aCm, toLab c mb f ((neg3 f.paCm).sub d) f.p0bCm)) : Res _)) = .ub) ∨ x = .fatal := by
        intro x
        cases x with
        | ok a => left; rw [Res.ok_bind, (turned_axial px py _ _ _ _).2]; rfl
        | fatal => right; rfl
        | ub => left; rfl
      rcases this (skAngle f.gamma (Real.sqrt (f.beta.length2 * (c * c))) e1 delta) with h | h
      · rw [h]; rfl
      · exfalso
        unfold skAngle at h
        simp only at h
        split at h
        · split at h <;> exact nomatch h
        · exact nomatch h
    · unfold collideP12
      rw [if_neg hw.ne', if_pos le, h2 mnzl (le_trans hz (min_le_right _ _))]
      have nf : cosXi s12 U ≠ .fatal := by
        unfold cosXi
        split
        · split <;> simp
        · split
          · simp
          · split <;> simp
      cases hx : cosXi s12 U with
      | ok cx =>
        rw [Res.ok_bind]
        split
        · rfl
        · rw [(turned_axial px py _ _ _ _).1]; rfl
      | fatal => exact absurd hx nf
      | ub => rfl

/-- Velocities whose transverse parts point in different directions: the momentum in the frame is not axial. -/
theorem Good.skew {c ma mb : ℝ} {va vb : Vec3 ℝ} {f : Frame} (h : Good c ma mb va vb f) (hc : 0 < c) (hma : 0 < ma) (hmb : 0 < mb) (ha : Slow c va)
    (hb : Slow c vb) (hd : va.x * vb.y ≠ va.y * vb.x) : Real.sqrt (f.paCm.x * f.paCm.x + f.paCm.y * f.paCm.y) ≠ 0 := by
  intro h0
  have x := mul_self_nonneg f.paCm.x
  have y := mul_self_nonneg f.paCm.y
  have h0 := (Real.sqrt_eq_zero (by linarith)).mp h0
  have ex := mul_self_eq_zero.mp (by linarith : f.paCm.x * f.paCm.x = 0)
  have ey := mul_self_eq_zero.mp (by linarith : f.paCm.y * f.paCm.y = 0)
  obtain ⟨t, tx, ty⟩ := h.trans (energy_sum hc hma hmb ha hb)
  rw [ex] at tx
  rw [ey] at ty
  have ra := (rGamma_spec hc ha).1
  have rb := (rGamma_spec hc hb).1
  unfold rMomentum at tx ty
  dsimp only at tx ty
  have hA : 0 < ma * rGamma c va := by positivity
  have hB : 0 < mb * rGamma c vb := by positivity
  generalize ma * rGamma c va = A at *
  generalize mb * rGamma c vb = B at *
  have k1 : (1 + t) * (A * B * (va.x * vb.y - va.y * vb.x)) = 0 := by
    linear_combination -(B * vb.y) * tx + (B * vb.x) * ty
  have k2 : t * (A * B * (va.x * vb.y - va.y * vb.x)) = 0 := by
    linear_combination (A * va.y) * tx - (A * va.x) * ty
  have k3 : A * B * (va.x * vb.y - va.y * vb.x) = 0 := by linear_combination k1 - k2
  rcases mul_eq_zero.mp k3 with k | k
  · exact absurd k (by positivity)
  · exact hd (by linarith)

theorem skew_total {c ma mb : ℝ} {va vb : Vec3 ℝ} (hc : 0 < c) (hma : 0 < ma) (hmb : 0 < mb) (ha : Slow c va)
    (hb : Slow c vb) (hd : va.x * vb.y ≠ va.y * vb.x) : (rMomentum c ma va).add (rMomentum c mb vb) ≠ ⟨0, 0, 0⟩ := by
  intro h
  have ra := (rGamma_spec hc ha).1
  have rb := (rGamma_spec hc hb).1
  unfold rMomentum Vec3.add Vec3.zip at h
  simp only [Vec3.mk.injEq] at h
  have hA : 0 < ma * rGamma c va := by positivity
  generalize ma * rGamma c va = A at *
  generalize mb * rGamma c vb = B at *
  have : A * (va.x * vb.y - va.y * vb.x) = 0 := by linear_combination vb.y * h.1 - vb.x * h.2.1
  rcases mul_eq_zero.mp this with k | k
  · exact absurd k hA.ne'
  · exact hd (by linarith)

theorem skew_ne {va vb : Vec3 ℝ} (hd : va.x * vb.y ≠ va.y * vb.x) : va ≠ vb := by
  rintro rfl
  exact hd (by ring)

/-! ### C40: whether particles collide -/

/-- C40 fails for SK98 and P12: two particles of the same mass - in particular of the same species - never change their
velocities, whatever the random numbers are (unless their momenta are opposite, then the result is not a number). -/
theorem C40_like_fails {c mnzl m delta phi s12 U Ud : ℝ} {normal : Bool} {pa pb : Part ℝ} (hc : 0 < c) (hz : 0 < mnzl) (hm : 0 < m)
    (hw : 0 < pb.weight) (ha : Slow c (vel pa)) (hb : Slow c (vel pb))
    (hP : (rMomentum c m (vel pa)).add (rMomentum c m (vel pb)) ≠ ⟨0, 0, 0⟩) :
    collideSK c mnzl m m delta phi pa pb = .ok (pa, pb) ∧ collideP12 c mnzl m m s12 U phi Ud normal pa pb = .ok (pa, pb) := by
  have hP' : (rMomentum c m (vel pb)).add (rMomentum c m (vel pa)) ≠ ⟨0, 0, 0⟩ := by
    intro h
    apply hP
    rw [← h]; unfold Vec3.add Vec3.zip; apply vec_ext <;> dsimp only <;> ring
  unfold collideSK collideP12
  rw [skCore_none hc hm le_rfl hz ha hb hP, skCore_none hc hm le_rfl hz hb ha hP', p12Core_none hc hm le_rfl hz ha hb hP,
    p12Core_none hc hm le_rfl hz hb ha hP', if_neg hw.ne', if_neg hw.ne']
  constructor <;> split <;> rfl

/-- ... nor do two particles of which the heavier one has the smaller weight. -/
theorem C40_heavy_fails {c mnzl ma mb delta phi s12 U Ud : ℝ} {normal : Bool} {pa pb : Part ℝ} (hc : 0 < c) (hz : 0 < mnzl) (hmb : 0 < mb) (hm : mb ≤ ma)
    (hw : 0 < pb.weight) (hww : pa.weight ≤ pb.weight) (ha : Slow c (vel pa)) (hb : Slow c (vel pb))
    (hP : (rMomentum c ma (vel pa)).add (rMomentum c mb (vel pb)) ≠ ⟨0, 0, 0⟩) :
    collideSK c mnzl ma mb delta phi pa pb = .ok (pa, pb) ∧ collideP12 c mnzl ma mb s12 U phi Ud normal pa pb = .ok (pa, pb) := by
  have le : pa.weight / pb.weight ≤ 1 := by rw [div_le_one hw]; exact hww
  unfold collideSK collideP12
  rw [skCore_none hc hmb hm hz ha hb hP, p12Core_none hc hmb hm hz ha hb hP, if_neg hw.ne', if_neg hw.ne', if_pos le, if_pos le]
  exact ⟨rfl, rfl⟩

theorem skAngle_ok {gamma vcm vrel delta : ℝ} (hd : delta ≠ 0) : ∃ a, skAngle gamma vcm vrel delta = .ok a ∧ a.2 ≠ 1 := by
  have sn := sinTheta_ne hd
  unfold skAngle
  dsimp only
  split
  · exact ⟨_, rfl, by norm_num⟩
  · rename_i h0
    refine ⟨_, rfl, ?_⟩
    dsimp only
    intro h1
    rw [Real.cos_arctan] at h1
    have pos : 0 < 1 + (sinTheta delta / (gamma * (cosTheta delta - vcm / vrel))) ^ 2 := by positivity
    rw [div_eq_one_iff_eq (Real.sqrt_pos.mpr pos).ne'] at h1
    have h2 : (1 : ℝ) = 1 + (sinTheta delta / (gamma * (cosTheta delta - vcm / vrel))) ^ 2 := by
      have := congrArg (· ^ 2) h1
      rw [Real.sq_sqrt pos.le] at this
      linarith
    have h3 : (sinTheta delta / (gamma * (cosTheta delta - vcm / vrel))) ^ 2 = 0 := by linarith
    exact div_ne_zero sn h0 (pow_eq_zero_iff two_ne_zero |>.mp h3)

theorem turned_ok {p : Vec3 ℝ} (h : Real.sqrt (p.x * p.x + p.y * p.y) ≠ 0) (sT cT sP cP : ℝ) :
    ∃ q, turned p sT cT sP cP = .ok q ∧ p.dot q = cT * p.length2 := by
  unfold turned
  simp only
  rw [if_neg h]
  refine ⟨_, rfl, ?_⟩
  have hr : Real.sqrt (p.x * p.x + p.y * p.y) ^ 2 = p.x * p.x + p.y * p.y :=
    Real.sq_sqrt (by have := mul_self_nonneg p.x; have := mul_self_nonneg p.y; linarith)
  unfold Vec3.dot Vec3.length2
  dsimp only
  generalize p.length = l at *
  generalize Real.sqrt (p.x * p.x + p.y * p.y) = r at *
  field_simp
  linear_combination -p.z * sT * cP * hr

theorem delta_ok {p : Vec3 ℝ} (h : Real.sqrt (p.x * p.x + p.y * p.y) ≠ 0) (sT cT sP cP : ℝ) : ∃ d, skDelta p sT cT sP cP = .ok d := by
  unfold skDelta
  simp only
  rw [if_neg h]
  exact ⟨_, rfl⟩

/-- A turn by another angle than zero changes both velocities. -/
theorem scatter_ne {c ma mb : ℝ} {va vb q : Vec3 ℝ} {f : Frame} (hc : 0 < c) (hma : 0 < ma) (hmb : 0 < mb) (ha : Slow c va) (hb : Slow c vb)
    (h : Good c ma mb va vb f) (hq : q.length2 = f.paCm.length2) (hne : q ≠ f.paCm) :
    toLab c ma f q f.p0aCm ≠ va ∧ toLab c mb f (neg3 q) f.p0bCm ≠ vb := by
  have mA : Mom c ma f.p0aCm q := ⟨(h.momA hc hma ha).pos, by rw [hq]; exact (h.momA hc hma ha).shell⟩
  have mB : Mom c mb f.p0bCm (neg3 q) := ⟨(h.momB hc hmb hb).pos, by rw [neg3_len, hq, ← neg3_len f.paCm]; exact (h.momB hc hmb hb).shell⟩
  obtain ⟨a1, a2, a3⟩ := toLab_spec hc hma h.hb h.g0 h.hg mA
  obtain ⟨b1, b2, b3⟩ := toLab_spec hc hmb h.hb h.g0 h.hg mB
  constructor
  · intro e
    rw [e] at a2 a3
    have := boost_back h.hb h.hg q f.p0aCm
    rw [← a2, ← a3, ← h.pa] at this
    exact hne this.symm
  · intro e
    rw [e] at b2 b3
    have := boost_back h.hb h.hg (neg3 q) f.p0bCm
    rw [← b2, ← b3, h.pb] at this
    apply hne
    unfold neg3 at this
    simp only [Vec3.mk.injEq, neg_inj] at this
    exact (vec_ext this.1 this.2.1 this.2.2).symm

/-- C40, where it holds for SK98: the lighter particle does not have the larger weight and the transverse velocities point in
different directions.  Then every deflection changes the velocities of both particles (and C38 applies). -/
theorem C40_SK98_partial {c ma mb : ℝ} {pa pb : Part ℝ} (hc : 0 < c) (hma : 0 < ma) (hm : ma < mb) (hw : 0 < pb.weight) (hww : pa.weight ≤ pb.weight)
    (ha : Slow c (vel pa)) (hb : Slow c (vel pb)) (hd : (vel pa).x * (vel pb).y ≠ (vel pa).y * (vel pb).x) :
    ∃ ε, 0 < ε ∧ ∀ mnzl, mnzl ≤ ε → ∀ delta phi, delta ≠ 0 →
      ∃ qa qb, collideSK c mnzl ma mb delta phi pa pb = .ok (qa, qb) ∧ vel qa ≠ vel pa ∧ vel qb ≠ vel pb := by
  have hmb : 0 < mb := by linarith
  obtain ⟨f, e, g⟩ := comFrame_good hc hma hmb ha hb (skew_total hc hma hmb ha hb hd)
  have lp := g.len_pos hc hma hmb ha hb (skew_ne hd)
  have sk := g.skew hc hma hmb ha hb hd
  obtain ⟨e1, e1p, h1⟩ := skCore_go hc hma hm ha hb (skew_ne hd) e lp
  have le : pa.weight / pb.weight ≤ 1 := by rw [div_le_one hw]; exact hww
  refine ⟨e1, e1p, fun mnzl hz delta phi hdel => ?_⟩
  obtain ⟨a, ea, a2⟩ := skAngle_ok (gamma := f.gamma) (vcm := Real.sqrt (f.beta.length2 * (c * c))) (vrel := e1) hdel
  obtain ⟨d, ed⟩ := delta_ok sk a.1 a.2 (Real.sin phi) (Real.cos phi)
  have et := turned_of_delta ed
  have ql := turned_len (skAngle_one ea) (Real.sin_sq_add_cos_sq _) et
  obtain ⟨q, eq, qd⟩ := turned_ok sk a.1 a.2 (Real.sin phi) (Real.cos phi)
  have hq : q = f.paCm.add d := by
    rw [et] at eq; injection eq with eq; exact eq.symm
  have qne : f.paCm.add d ≠ f.paCm := by
    intro h
    rw [hq, h] at qd
    apply a2
    have : f.paCm.dot f.paCm = f.paCm.length2 := by unfold Vec3.dot Vec3.length2; ring
    rw [this] at qd
    exact mul_right_cancel₀ lp.ne' (by linarith)
  have := scatter_ne hc hma hmb ha hb g ql qne
  refine ⟨setVel pa (toLab c ma f (f.paCm.add d) f.p0aCm), setVel pb (toLab c mb f (neg3 (f.paCm.add d)) f.p0bCm), ?_, this.1, this.2⟩
  unfold collideSK
  rw [if_neg hw.ne', if_pos le, h1 mnzl hz, ea, Res.ok_bind, ed, Res.ok_bind, neg3_sub]
  rfl

/-! ### The angle of P12 -/

/-- The polynomial of the second regime is positive. -/
theorem aInv_pos {s : ℝ} (h : 0 < s) :
    0 < 0.00569578 + 0.9560202 * s - 0.508139 * s ^ 2 + 0.47913906 * s ^ 3 - 0.12788975 * s ^ 4 + 0.02389567 * s ^ 5 := by
  have q1 : 0.3 ≤ 0.47913906 - 0.12788975 * s + 0.02389567 * s ^ 2 := by nlinarith [sq_nonneg (s - 2.676)]
  have q2 : 0 < 0.9560202 - 0.508139 * s + 0.3 * s ^ 2 := by nlinarith [sq_nonneg (s - 0.847)]
  have : 0.00569578 + 0.9560202 * s - 0.508139 * s ^ 2 + 0.47913906 * s ^ 3 - 0.12788975 * s ^ 4 + 0.02389567 * s ^ 5 =
    0.00569578 + s * (0.9560202 - 0.508139 * s + 0.3 * s ^ 2) + s ^ 3 * ((0.47913906 - 0.12788975 * s + 0.02389567 * s ^ 2) - 0.3) := by ring
  rw [this]
  have : 0 ≤ s ^ 3 * ((0.47913906 - 0.12788975 * s + 0.02389567 * s ^ 2) - 0.3) := mul_nonneg (by positivity) (by linarith)
  have : 0 < s * (0.9560202 - 0.508139 * s + 0.3 * s ^ 2) := mul_pos h q2
  have : (0 : ℝ) < 0.00569578 := by norm_num
  linarith

theorem log_range {a U : ℝ} (ha : 0 < a) (h0 : 0 ≤ U) (h1 : U ≤ 1) :
    -a ≤ Real.log (Real.exp (-a) + 2 * U * Real.sinh a) ∧ Real.log (Real.exp (-a) + 2 * U * Real.sinh a) ≤ a := by
  have s0 : 0 < Real.sinh a := by rw [Real.sinh_eq]; have := Real.exp_lt_exp.mpr (by linarith : -a < a); linarith
  have e0 := Real.exp_pos (-a)
  have lo : Real.exp (-a) ≤ Real.exp (-a) + 2 * U * Real.sinh a := le_add_of_nonneg_right (by positivity)
  have hi : Real.exp (-a) + 2 * U * Real.sinh a ≤ Real.exp a := by
    have : Real.exp a = Real.exp (-a) + 2 * Real.sinh a := by rw [Real.sinh_eq]; ring
    rw [this]
    nlinarith
  constructor
  · have := Real.log_le_log e0 lo
    rwa [Real.log_exp] at this
  · have := Real.log_le_log (lt_of_lt_of_le e0 lo) hi
    rwa [Real.log_exp] at this

/-- For `s12` of at least one tenth the cosine is one. -/
theorem C38_P12_angle {s12 U : ℝ} (hs : 1/10 ≤ s12) (h0 : 0 ≤ U) (h1 : U ≤ 1) : ∃ cx, cosXi s12 U = .ok cx ∧ -1 ≤ cx ∧ cx ≤ 1 := by
  have key : ∀ b : ℝ, 0 < b → -1 ≤ b * Real.log (Real.exp (-(1 / b)) + 2 * U * Real.sinh (1 / b)) ∧
      b * Real.log (Real.exp (-(1 / b)) + 2 * U * Real.sinh (1 / b)) ≤ 1 := by
    intro b hb
    have := log_range (a := 1 / b) (by positivity) h0 h1
    have e : b * (1 / b) = 1 := by field_simp
    constructor
    · have := mul_le_mul_of_nonneg_left this.1 hb.le
      linarith
    · have := mul_le_mul_of_nonneg_left this.2 hb.le
      linarith
  unfold cosXi
  rw [if_neg (by linarith)]
  split
  · exact ⟨_, rfl, key _ (aInv_pos (by linarith))⟩
  · split
    · have p : (0 : ℝ) < 3 * Real.exp (-s12) := by positivity
      have := key (1 / (3 * Real.exp (-s12))) (by positivity)
      rw [one_div_one_div] at this
      exact ⟨_, rfl, this⟩
    · exact ⟨_, rfl, by linarith, by linarith⟩

/-- C38 fails for P12 in the first regime: for a small random number the sine is the root of a negative number. -/
theorem C38_P12_angle_fails {c ma mb : ℝ} {pa pb : Part ℝ} (hc : 0 < c) (hma : 0 < ma) (hm : ma < mb) (hw : 0 < pb.weight) (hww : pa.weight ≤ pb.weight)
    (ha : Slow c (vel pa)) (hb : Slow c (vel pb)) (hd : (vel pa).x * (vel pb).y ≠ (vel pa).y * (vel pb).x) :
    ∃ ε, 0 < ε ∧ ∀ mnzl, mnzl ≤ ε → ∀ s12 U phi Ud, 0 < s12 → s12 < 1/10 → 0 < U → U < Real.exp (-2 / s12) →
      collideP12 c mnzl ma mb s12 U phi Ud true pa pb = .ub := by
  have hmb : 0 < mb := by linarith
  obtain ⟨f, e, g⟩ := comFrame_good hc hma hmb ha hb (skew_total hc hma hmb ha hb hd)
  have lp := g.len_pos hc hma hmb ha hb (skew_ne hd)
  obtain ⟨e1, e1p, h1⟩ := p12Core_go hc hma hm ha hb (skew_ne hd) e lp
  have le : pa.weight / pb.weight ≤ 1 := by rw [div_le_one hw]; exact hww
  refine ⟨e1, e1p, fun mnzl hz s12 U phi Ud hs hs1 hU hU1 => ?_⟩
  unfold collideP12
  have cx : cosXi s12 U = .ok (1 + s12 * Real.log U) := by
    unfold cosXi
    rw [if_pos hs1, if_neg hU.ne']
  rw [if_neg hw.ne', if_pos le, h1 mnzl hz, cx, Res.ok_bind]
  have lg : Real.log U < -2 / s12 := by
    have := Real.log_lt_log hU hU1
    rwa [Real.log_exp] at this
  have : s12 * Real.log U < -2 := by
    have := mul_lt_mul_of_pos_left lg hs
    rwa [mul_div_cancel₀ _ hs.ne'] at this
  rw [if_pos (by nlinarith)]
  rfl

/-- C38 fails for P12 by the rejection: if the second particle is the lighter one, has the smaller weight and the random number
lies between the weights, then the second particle is stopped and the first one left as it was. -/
theorem C38_P12_rejection_fails {c ma mb : ℝ} {pa pb : Part ℝ} (hc : 0 < c) (hmb : 0 < mb) (hm : mb < ma) (hw : 0 < pb.weight) (hww : pb.weight < pa.weight)
    (ha : Slow c (vel pa)) (hb : Slow c (vel pb)) (hd : (vel pa).x * (vel pb).y ≠ (vel pa).y * (vel pb).x) :
    ∃ ε, 0 < ε ∧ ∀ mnzl, mnzl ≤ ε → ∀ s12 U phi Ud, 1/10 ≤ s12 → 0 ≤ U → U ≤ 1 → pb.weight ≤ Ud → Ud < pa.weight →
      collideP12 c mnzl ma mb s12 U phi Ud true pa pb = .ok (pa, setVel pb ⟨0, 0, 0⟩) ∧
      ¬ SameTotals c ma mb (vel pa) (vel pb) (vel pa) ⟨0, 0, 0⟩ := by
  have hma : 0 < ma := by linarith
  have hd' : (vel pb).x * (vel pa).y ≠ (vel pb).y * (vel pa).x := fun h => hd (by linarith)
  obtain ⟨f, e, g⟩ := comFrame_good hc hmb hma hb ha (skew_total hc hmb hma hb ha hd')
  have lp := g.len_pos hc hmb hma hb ha (skew_ne hd')
  have sk := g.skew hc hmb hma hb ha hd'
  obtain ⟨e1, e1p, h1⟩ := p12Core_go hc hmb hm hb ha (skew_ne hd') e lp
  have le : ¬ pa.weight / pb.weight ≤ 1 := by rw [div_le_one hw]; linarith
  refine ⟨e1, e1p, fun mnzl hz s12 U phi Ud hs h0 hU hU1 hU2 => ⟨?_, ?_⟩⟩
  · obtain ⟨cx, ec, c1, c2⟩ := C38_P12_angle hs h0 hU
    obtain ⟨q, eq, _⟩ := turned_ok sk (Real.sqrt (1 - cx ^ 2)) cx (Real.sin phi) (Real.cos phi)
    unfold collideP12
    rw [if_neg hw.ne', if_neg le, h1 mnzl hz, ec, Res.ok_bind, if_neg (by nlinarith), eq, Res.ok_bind, Res.ok_bind]
    dsimp only
    rw [if_neg (not_lt.mpr hU1), if_pos hU2, if_neg (not_lt.mpr hU1)]
    rfl
  · rintro ⟨h, _⟩
    have rb := (rGamma_spec hc hb).1
    have B : 0 < mb * rGamma c (vel pb) := by positivity
    unfold rMomentum Vec3.add Vec3.zip at h
    simp only [Vec3.mk.injEq, mul_zero, add_zero] at h
    generalize mb * rGamma c (vel pb) = B' at *
    have x : (vel pb).x = 0 := (mul_eq_zero.mp (by linarith [h.1] : B' * (vel pb).x = 0)).resolve_left B.ne'
    have y : (vel pb).y = 0 := (mul_eq_zero.mp (by linarith [h.2.1] : B' * (vel pb).y = 0)).resolve_left B.ne'
    exact hd (by rw [x, y]; ring)

/-! ### Non-vacuity -/

def exC : Part ℝ := ⟨1, 0, 1, 1, 0, 1, 3, 0, 4, 2, 0, 1, 1, 0, 0⟩
def exD : Part ℝ := ⟨1, 0, 1, 1, 0, 1, 0, 1, 4, 3, 0, 1, 1, 0, 0⟩
theorem exC_slow : Slow 10 (vel exC) := by unfold Slow vel exC; norm_num
theorem exD_slow : Slow 10 (vel exD) := by unfold Slow vel exD; norm_num
theorem exCD_skew : (vel exC).x * (vel exD).y ≠ (vel exC).y * (vel exD).x := by unfold vel exC exD; norm_num
example : ∃ mnzl, 0 < mnzl ∧ ∃ qa qb, collideSK 10 mnzl 1 1836 (1/10) 1 exC exD = .ok (qa, qb) ∧ vel qa ≠ vel exC ∧
    Slow 10 (vel qa) ∧ SameTotals 10 1 1836 (vel exC) (vel exD) (vel qa) (vel qb) := by
  obtain ⟨ε, hε, h⟩ := C40_SK98_partial (c := 10) (ma := 1) (mb := 1836) (pa := exC) (pb := exD) (by norm_num) (by norm_num) (by norm_num)
    (by norm_num [exD]) (by norm_num [exC, exD]) exC_slow exD_slow exCD_skew
  obtain ⟨qa, qb, e, h1, h2⟩ := h ε le_rfl (1/10) 1 (by norm_num)
  have := C38_SK98_partial (by norm_num) (by norm_num) (by norm_num) exC_slow exD_slow e
  exact ⟨ε, hε, qa, qb, e, h1, this.1, this.2.2.1⟩
example := C38_axial_fails (c := 10) (ma := 1) (mb := 1836) (pa := setVel exC ⟨0, 0, 4⟩) (pb := setVel exD ⟨0, 0, 1⟩) (by norm_num) (by norm_num) (by norm_num)
  (by norm_num [exD, setVel]) (by norm_num [exC, exD, setVel]) (by unfold Slow vel setVel; norm_num) (by unfold Slow vel setVel; norm_num)
  (by simp [vel, setVel]) ⟨rfl, rfl⟩ ⟨rfl, rfl⟩
example := C38_P12_angle_fails (c := 10) (ma := 1) (mb := 1836) (pa := exC) (pb := exD) (by norm_num) (by norm_num) (by norm_num)
  (by norm_num [exD]) (by norm_num [exC, exD]) exC_slow exD_slow exCD_skew
example := C38_P12_rejection_fails (c := 10) (ma := 1836) (mb := 1) (pa := exD) (pb := exC) (by norm_num) (by norm_num) (by norm_num)
  (by norm_num [exC]) (by norm_num [exC, exD]) exD_slow exC_slow (fun h => exCD_skew (by linarith))
example := C40_like_fails (c := 10) (mnzl := 1/1000) (m := 1) (delta := 1) (phi := 1) (s12 := 1) (U := 1/2) (Ud := 1) (normal := true) (pa := exC) (pb := exD)
  (by norm_num) (by norm_num) (by norm_num) (by norm_num [exD]) exC_slow exD_slow (skew_total (by norm_num) (by norm_num) (by norm_num) exC_slow exD_slow exCD_skew)
/-- Opposite momenta. -/
example := C38_head_on_fails (c := 10) (mnzl := 1/1000) (ma := 1) (mb := 1) (delta := 1) (phi := 1) (s12 := 1) (U := 1/2) (Ud := 1) (normal := true)
  (pa := setVel exC ⟨0, 3, 4⟩) (pb := setVel exC ⟨0, -3, -4⟩) (by norm_num) (by norm_num) (by norm_num) (by unfold Slow vel setVel; norm_num)
  (by unfold Slow vel setVel; norm_num) (by simp only [vel, setVel, ne_eq, Vec3.mk.injEq]; norm_num) (by unfold rMomentum rGamma vel setVel Vec3.add Vec3.zip; apply vec_ext <;> norm_num)

end Coll
end Pico
