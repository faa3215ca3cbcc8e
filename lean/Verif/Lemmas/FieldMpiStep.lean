import Verif.Lemmas.FieldMpi
import Verif.Props.FieldStep

/-! One step of all processes. -/

set_option linter.unusedSimpArgs false
set_option linter.unusedVariables false
set_option linter.unusedSectionVars false

namespace Pico
namespace Yee

open SMB

variable {K : Type _}

theorem isMag_isH {c : Comp} (h : c.isMag = true) : isH c := by
  unfold isH
  cases c <;> simp_all [Comp.isMag]

theorem isEl_iff {c : Comp} : c.isEl = true ↔ isE c := by
  unfold isE
  cases c <;> simp [Comp.isEl]

section
variable [Field K] {p : Par K} {procs domR domZ : Nat}

theorem Slabs.divided (S : Slabs p procs domR domZ) (k : Nat) : Divided (slabPar p procs k) domR domZ :=
  ⟨S.hd.r1, S.hd.z1, S.hd.r2, S.hd.z2, S.hd.r3, S.hd.z3, S.hd.r4, S.hd.z4, S.hd.shape⟩

theorem Slabs.len (S : Slabs p procs domR domZ) : p.nz = procs * slabLen p procs := (Nat.mul_div_cancel' S.pz).symm

theorem Slabs.len2 (S : Slabs p procs domR domZ) : 2 ≤ slabLen p procs := by
  have h1 := S.hd.z1
  have h2 : 2 * domZ ≤ slabLen p procs := S.hd.z2
  omega

theorem Slabs.whole (S : Slabs p procs domR domZ) : Divided p 1 procs := by
  have h1 := S.hd.r1
  have h2 : 2 * domR ≤ p.nr := S.hd.r2
  have h3 : p.nr < 2 ^ 31 := S.hd.r3
  refine ⟨le_rfl, S.p1, by omega, ?_, h3, by have := S.z3; omega, Nat.one_dvd _, S.pz, Or.inl rfl⟩
  rw [S.len]
  have := Nat.mul_le_mul_left procs S.len2
  omega

theorem low_mul {n d : Nat} (hd : 1 ≤ d) (h : d ∣ n) (i : Nat) : low n d i = i * (n / d) := by
  obtain ⟨q, rfl⟩ := h
  unfold low
  rw [Nat.mul_assoc, Nat.mul_div_cancel_left _ hd, Nat.mul_div_cancel_left _ hd, Nat.mul_comm]

theorem slabPar_eq (S : Slabs p procs domR domZ) {k : Nat} (hk : k < procs) : slabPar p procs k = winPar p 1 procs 0 k := by
  have e1 : (winPar p 1 procs 0 k).nz = p.nz / procs := by rw [winPar_nz, hgt_const S.p1 S.pz]
  have e2 : (winPar p 1 procs 0 k).nr = p.nr := by rw [winPar_nr]; unfold hgt low; omega
  have e3 : (winPar p 1 procs 0 k).r0 = p.r0 := by rw [winPar_r0, low_zero, Nat.zero_add]
  have e4 := walls_eq p 1 procs 0 k
  have e5 : (winPar p 1 procs 0 k).walls = (slabPar p procs k).walls := by
    cases hw : (winPar p 1 procs 0 k).walls with
    | mk a b c d =>
      rw [hw] at e4
      obtain ⟨f1, f2, f3, f4⟩ := e4
      dsimp only at f1 f2 f3 f4
      subst f1 f2 f3 f4
      unfold slabPar slabWalls
      dsimp only
      have g1 : (if k = 0 then p.walls.z0 else false) = if 0 < k then false else p.walls.z0 := by
        by_cases h : k = 0
        · rw [if_pos h, if_neg (by omega)]
        · rw [if_neg h, if_pos (by omega)]
      have g2 : (if k = procs - 1 then p.walls.zz else false) = if (k : Int) < (procs : Int) - 1 then false else p.walls.zz := by
        by_cases h : k = procs - 1
        · rw [if_pos h, if_neg (by omega)]
        · rw [if_neg h, if_pos (by omega)]
      rw [if_pos rfl, if_pos rfl, g1, g2]
  have that : slabPar p procs k = ⟨p.dr, p.dz, p.dt, p.mu, p.r0, p.nr, p.nz / procs, (slabPar p procs k).walls⟩ := rfl
  rw [that, ← e5]
  have : winPar p 1 procs 0 k = ⟨p.dr, p.dz, p.dt, p.mu, (winPar p 1 procs 0 k).r0, (winPar p 1 procs 0 k).nr,
    (winPar p 1 procs 0 k).nz, (winPar p 1 procs 0 k).walls⟩ := rfl
  rw [this, e1, e2, e3]

/-- Number of columns of a domain. -/
def domLen (p : Par K) (procs domZ : Nat) : Nat := slabLen p procs / domZ

theorem Slabs.dlen (S : Slabs p procs domR domZ) : slabLen p procs = domZ * domLen p procs domZ := (Nat.mul_div_cancel' S.hd.z4).symm

theorem Slabs.low_z (S : Slabs p procs domR domZ) (j : Nat) : low (slabLen p procs) domZ j = j * domLen p procs domZ :=
  low_mul S.hd.z1 S.hd.z4 j

theorem Slabs.hgt_z (S : Slabs p procs domR domZ) (j : Nat) : hgt (slabLen p procs) domZ j = domLen p procs domZ :=
  hgt_const S.hd.z1 S.hd.z4 j

theorem Slabs.dlen2 (S : Slabs p procs domR domZ) : 2 ≤ domLen p procs domZ := by
  have h : domZ * 2 ≤ domZ * domLen p procs domZ := by
    rw [← S.dlen]
    have : 2 * domZ ≤ slabLen p procs := S.hd.z2
    omega
  exact Nat.le_of_mul_le_mul_left h S.hd.z1

end

section
variable [Field K] {p : Par K} {procs domR domZ : Nat}

/-- Fields of the slabs put together by the exchange. -/
theorem glue_window (S : Slabs p procs domR domZ) (c : Comp) (N N' : Nat → Solvers K) (s : Nat → Int → Int → K) (g : Int → Int → K)
    (hN : ∀ k i j x y, k < procs → i < domR → j < domZ → (winPar (slabPar p procs k) domR domZ i j).inside x y →
      ¬ Seam (slabPar p procs k) domR domZ i j x y → N k i j c x y = s k (low p.nr domR i + x) (low (slabLen p procs) domZ j + y))
    (hs : ∀ k X Y, k < procs → (slabPar p procs k).inside X Y →
      s k X Y = if 0 ≤ Y ∧ Y < slabLen p procs then g X (k * slabLen p procs + Y) else 0)
    (hg : ∀ X Y, p.inside X Y → ¬ p.logical X Y → g X Y = 0)
    (hx : ∀ k, k < procs → ∀ i j x y, i < domR → j < domZ → (winPar (slabPar p procs k) domR domZ i j).inside x y →
      N' k i j c x y = N k i j c x y +
        (if 0 < k ∧ j = 0 ∧ y < 2 then N (k - 1) i (domZ - 1) c x (domLen p procs domZ + y) else 0) +
        (if k + 1 < procs ∧ j = domZ - 1 ∧ (domLen p procs domZ : Int) - 2 ≤ y then N (k + 1) i 0 c x (y - domLen p procs domZ) else 0))
    (k i j : Nat) (x y : Int) (hk : k < procs) (hi : i < domR) (hj : j < domZ)
    (he : (winPar (slabPar p procs k) domR domZ i j).edge x y) :
    N' k i j c x y = g (rowOf p domR i x) (colOf p procs domZ k j y) := by
  have hz1 := S.hd.z1
  have h2 := S.dlen2
  have hnz := S.len
  have hdl := S.dlen
  have lz : ∀ j, low (slabLen p procs) domZ j = j * domLen p procs domZ := S.low_z
  have hin := he.1
  have bnd := (S.divided k).bounds hi hj
  rw [show (slabPar p procs k).nz = slabLen p procs from rfl, show (slabPar p procs k).nr = p.nr from rfl, S.hgt_z] at bnd
  have ins : ∀ k' j' x y, (winPar (slabPar p procs k') domR domZ i j').inside x y ↔
      (-2 ≤ x ∧ x < hgt p.nr domR i + 2) ∧ (-2 ≤ y ∧ y < domLen p procs domZ + 2) := by
    intro k' j' x y
    unfold Par.inside
    rw [winPar_nr, winPar_nz, show (slabPar p procs k').nz = slabLen p procs from rfl, S.hgt_z]
    exact Iff.rfl
  have edg := he.2
  rw [winPar_nr, winPar_nz, show (slabPar p procs k).nz = slabLen p procs from rfl, show (slabPar p procs k).nr = p.nr from rfl,
    S.hgt_z] at edg
  have seam : ∀ k' j' x y, Seam (slabPar p procs k') domR domZ i j' x y ↔
      (i + 1 < domR ∧ 0 < j' ∧ (hgt p.nr domR i : Int) ≤ x ∧ y < 0) ∨
        (0 < i ∧ j' + 1 < domZ ∧ x < 0 ∧ (domLen p procs domZ : Int) ≤ y) := by
    intro k' j' x y
    unfold Seam
    rw [show (slabPar p procs k').nz = slabLen p procs from rfl, show (slabPar p procs k').nr = p.nr from rfl, S.hgt_z]
  have sins : ∀ k' X Y, (slabPar p procs k').inside X Y ↔ (-2 ≤ X ∧ X < p.nr + 2) ∧ (-2 ≤ Y ∧ Y < slabLen p procs + 2) :=
    fun _ _ _ => Iff.rfl
  have last : low (slabLen p procs) domZ (domZ - 1) + domLen p procs domZ = slabLen p procs := by
    rw [lz, ← Nat.succ_mul, Nat.succ_eq_add_one, Nat.sub_add_cancel hz1]
    exact hdl.symm
  have first : low (slabLen p procs) domZ 0 = 0 := low_zero _ _
  rw [hx k hk i j x y hi hj hin]
  have hin' := (ins k j x y).mp hin
  have main := hN k i j x y hk hi hj hin (fun n => by rw [seam] at n; omega)
  unfold rowOf colOf
  generalize hX : (low p.nr domR i : Int) + x = X at main ⊢
  have XI : -2 ≤ X ∧ X < p.nr + 2 := by omega
  -- the neighbours
  have prev : 0 < k → j = 0 → y < 2 → N (k - 1) i (domZ - 1) c x (domLen p procs domZ + y) =
      if y < 0 then g X (k * slabLen p procs + y) else 0 := by
    intro k0 j0 y2
    have hn := hN (k - 1) i (domZ - 1) x (domLen p procs domZ + y) (by omega) hi (by omega) ((ins _ _ _ _).mpr (by omega))
      (fun n => by rw [seam] at n; omega)
    rw [hn, hX, hs (k - 1) _ _ (by omega) ((sins _ _ _).mpr (by omega))]
    by_cases y0 : y < 0
    · rw [if_pos (by omega), if_pos y0]
      obtain ⟨k, rfl⟩ : ∃ a, k = a + 1 := ⟨k - 1, by omega⟩
      rw [Nat.add_sub_cancel]
      congr 1
      push_cast
      have : (low (slabLen p procs) domZ (domZ - 1) : Int) + (domLen p procs domZ + y) = slabLen p procs + y := by omega
      rw [this]
      ring
    · rw [if_neg (by omega), if_neg y0]
  have next : k + 1 < procs → j = domZ - 1 → (domLen p procs domZ : Int) - 2 ≤ y → N (k + 1) i 0 c x (y - domLen p procs domZ) =
      if (domLen p procs domZ : Int) ≤ y then g X (k * slabLen p procs + (low (slabLen p procs) domZ j + y)) else 0 := by
    intro k0 j0 y2
    have hn := hN (k + 1) i 0 x (y - domLen p procs domZ) (by omega) hi (by omega) ((ins _ _ _ _).mpr (by omega))
      (fun n => by rw [seam] at n; omega)
    rw [hn, hX, hs (k + 1) _ _ (by omega) ((sins _ _ _).mpr (by omega))]
    by_cases y0 : (domLen p procs domZ : Int) ≤ y
    · rw [if_pos (by omega), if_pos y0]
      congr 1
      subst j0
      have : (low (slabLen p procs) domZ (domZ - 1) : Int) + y = slabLen p procs + (y - domLen p procs domZ) := by omega
      rw [this, first]
      push_cast
      ring
    · rw [if_neg (by omega), if_neg y0]
  have kz : ((k + 1) * slabLen p procs : Nat) ≤ p.nz := by rw [hnz]; exact Nat.mul_le_mul_right _ hk
  have kz' : (k + 1) * slabLen p procs = k * slabLen p procs + slabLen p procs := Nat.succ_mul _ _
  have kl : k + 1 = procs → p.nz = k * slabLen p procs + slabLen p procs := by rintro rfl; rw [hnz, kz']
  have k0 : k = 0 → (k : Int) * slabLen p procs = 0 := by rintro rfl; simp
  have kc : (k : Int) * slabLen p procs = (k * slabLen p procs : Nat) := by push_cast; rfl
  have kpos : 0 < k → slabLen p procs ≤ k * slabLen p procs := fun h => Nat.le_mul_of_pos_left _ h
  rw [main, hs k _ _ hk ((sins _ _ _).mpr (by omega))]
  by_cases hlo : (low (slabLen p procs) domZ j : Int) + y < 0
  · have j0 : j = 0 := by
      by_contra n
      have := bnd.2.2.2.2.1 n
      omega
    subst j0
    rw [first] at *
    rw [if_neg (by omega), zero_add]
    have p3 : ¬ (k + 1 < procs ∧ 0 = domZ - 1 ∧ (domLen p procs domZ : Int) - 2 ≤ y) := by omega
    rw [if_neg p3, add_zero]
    by_cases h0 : 0 < k
    · rw [if_pos ⟨h0, rfl, by omega⟩, prev h0 rfl (by omega), if_pos (by omega)]
      congr 1
      simp
    · rw [if_neg (fun n => h0 n.1)]
      have := k0 (by omega)
      refine (hg _ _ ?_ ?_).symm
      · unfold Par.inside; omega
      · unfold Par.logical; omega
  · by_cases hhi : (low (slabLen p procs) domZ j : Int) + y < slabLen p procs
    · rw [if_pos ⟨by omega, hhi⟩]
      have t1 : (if 0 < k ∧ j = 0 ∧ y < 2 then N (k - 1) i (domZ - 1) c x (domLen p procs domZ + y) else 0) = 0 := by
        by_cases h : 0 < k ∧ j = 0 ∧ y < 2
        · rw [if_pos h, prev h.1 h.2.1 h.2.2, if_neg]
          have := h.2.1
          subst this
          omega
        · rw [if_neg h]
      have t2 : (if k + 1 < procs ∧ j = domZ - 1 ∧ (domLen p procs domZ : Int) - 2 ≤ y then N (k + 1) i 0 c x (y - domLen p procs domZ)
          else 0) = 0 := by
        by_cases h : k + 1 < procs ∧ j = domZ - 1 ∧ (domLen p procs domZ : Int) - 2 ≤ y
        · rw [if_pos h, next h.1 h.2.1 h.2.2, if_neg]
          have := h.2.1
          subst this
          omega
        · rw [if_neg h]
      rw [t1, t2, add_zero, add_zero]
    · have j0 : j = domZ - 1 := by
        by_contra n
        have := bnd.2.2.2.2.2.2 n
        omega
      have yl : (domLen p procs domZ : Int) ≤ y := by subst j0; omega
      rw [if_neg (by omega), zero_add]
      have p3 : ¬ (0 < k ∧ j = 0 ∧ y < 2) := by omega
      rw [if_neg p3, zero_add]
      by_cases h0 : k + 1 < procs
      · rw [if_pos ⟨h0, j0, by omega⟩, next h0 j0 (by omega), if_pos yl]
      · rw [if_neg (fun n => h0 n.1)]
        have := kl (by omega)
        refine (hg _ _ ?_ ?_).symm
        · unfold Par.inside; omega
        · unfold Par.logical; omega

end

section
variable [Field K] [CharZero K] {p : Par K} {procs domR domZ : Nat}

theorem mpiPar_eq (S : Slabs p procs domR domZ) : mpiPar p procs domR domZ = fun k => winPar (slabPar p procs k) domR domZ := by
  funext k
  exact domPar_eq (S.divided k)

theorem edgeOf_iff (S : Slabs p procs domR domZ) (k i j : Nat) (x y : Int) :
    EdgeOfMpi p procs domR domZ k i j x y ↔ k < procs ∧ i < domR ∧ j < domZ ∧ (winPar (slabPar p procs k) domR domZ i j).edge x y := by
  unfold EdgeOfMpi Par.edge Par.inside
  rw [winPar_nr, winPar_nz, show (slabPar p procs k).nz = slabLen p procs from rfl, show (slabPar p procs k).nr = p.nr from rfl]
  constructor
  · rintro ⟨a, b, c, d, e, f⟩; exact ⟨a, b, c, ⟨d, e⟩, f⟩
  · rintro ⟨a, b, c, ⟨d, e⟩, f⟩; exact ⟨a, b, c, d, e, f⟩

theorem cellOfMpi_iff (S : Slabs p procs domR domZ) (k i j : Nat) (x y : Int) :
    CellOfMpi p procs domR domZ k i j x y ↔
      k < procs ∧ i < domR ∧ j < domZ ∧ (winPar (slabPar p procs k) domR domZ i j).logical x y := by
  unfold CellOfMpi Par.logical
  rw [winPar_nr, winPar_nz, show (slabPar p procs k).nz = slabLen p procs from rfl, show (slabPar p procs k).nr = p.nr from rfl]

/-- A cell of a domain lies in the slab of its process. -/
theorem col_in (S : Slabs p procs domR domZ) {k i j : Nat} {x y : Int} (hi : i < domR) (hj : j < domZ)
    (hl : (winPar (slabPar p procs k) domR domZ i j).logical x y) :
    (k * slabLen p procs : Nat) ≤ colOf p procs domZ k j y ∧ colOf p procs domZ k j y < ((k + 1) * slabLen p procs : Nat) ∧
      0 ≤ rowOf p domR i x ∧ rowOf p domR i x < p.nr := by
  have bnd := (S.divided k).bounds hi hj
  unfold Par.logical at hl
  rw [winPar_nr, winPar_nz] at hl
  rw [show (slabPar p procs k).nz = slabLen p procs from rfl, show (slabPar p procs k).nr = p.nr from rfl] at bnd hl
  unfold colOf rowOf
  have e : (k + 1) * slabLen p procs = k * slabLen p procs + slabLen p procs := Nat.succ_mul _ _
  have kc : (k : Int) * slabLen p procs = (k * slabLen p procs : Nat) := by push_cast; rfl
  rw [e, kc]
  omega

/-- The part of the area that process `k` works on, as a memory of its own. -/
def slabMem (p : Par K) (procs k : Nat) (u : Mem K) : Mem K := fun c X Y => u c X (k * slabLen p procs + Y)

theorem slabMem_win (S : Slabs p procs domR domZ) (k : Nat) (u : Mem K) :
    (fun c x y => u c ((low p.nr 1 0 : Nat) + x) ((low p.nz procs k : Nat) + y)) = slabMem p procs k u := by
  funext c x y
  unfold slabMem
  rw [low_zero, low_mul S.p1 S.pz]
  congr 1
  simp

/-- The electric step of a process is the one of the area. -/
theorem slabE (S : Slabs p procs domR domZ) {k : Nat} (hk : k < procs) (u : Mem K) :
    ∃ f s, calcE p u = .ok f ∧ calcE (slabPar p procs k) (slabMem p procs k u) = .ok s ∧
      (∀ c X Y, isE c → p.inside X Y → ¬ p.logical X Y → f c X Y = 0) ∧
      (∀ c X Y, ¬ isE c → f c X Y = u c X Y) ∧
      ∀ c X Y, isE c → (slabPar p procs k).inside X Y →
        s c X Y = if 0 ≤ Y ∧ Y < slabLen p procs then f c X (k * slabLen p procs + Y) else 0 := by
  obtain ⟨f, N, e1, e2, a1, a2, a3, a4, a5⟩ := calcE_window p S.whole
    (M := fun i j c x y => u c ((low p.nr 1 i : Nat) + x) ((low p.nz procs j : Nat) + y)) (m := u)
    ⟨fun _ _ _ _ _ _ _ _ _ => rfl, fun _ _ _ _ _ _ _ _ => rfl⟩
  have e3 := e2 0 k (by omega) hk
  rw [slabMem_win S, ← slabPar_eq S hk] at e3
  refine ⟨f, N 0 k, e1, e3, a4, a2, ?_⟩
  intro c X Y hc hin
  have kz : ((k + 1) * slabLen p procs : Nat) ≤ p.nz := by rw [S.len]; exact Nat.mul_le_mul_right _ hk
  have kz' : (k + 1) * slabLen p procs = k * slabLen p procs + slabLen p procs := Nat.succ_mul _ _
  have kc : (k : Int) * slabLen p procs = (k * slabLen p procs : Nat) := by push_cast; rfl
  have hin' : (-2 ≤ X ∧ X < p.nr + 2) ∧ (-2 ≤ Y ∧ Y < slabLen p procs + 2) := hin
  by_cases hl : (slabPar p procs k).logical X Y
  · have hl' : (0 ≤ X ∧ X < p.nr) ∧ (0 ≤ Y ∧ Y < slabLen p procs) := hl
    rw [if_pos hl'.2, a5 c 0 k X Y hc (by omega) hk (by rw [← slabPar_eq S hk]; exact hl), low_zero, low_mul S.p1 S.pz]
    congr 1
    simp
  · have hl' : ¬ ((0 ≤ X ∧ X < p.nr) ∧ (0 ≤ Y ∧ Y < slabLen p procs)) := hl
    rw [a3 c 0 k X Y hc (by omega) hk (by rw [← slabPar_eq S hk]; exact hin) (by rw [← slabPar_eq S hk]; exact hl)]
    by_cases hy : 0 ≤ Y ∧ Y < slabLen p procs
    · rw [if_pos hy, a4 c _ _ hc]
      · unfold Par.inside; omega
      · unfold Par.logical; omega
    · rw [if_neg hy]

/-- The magnetic step of a process is the one of the area. -/
theorem slabH (S : Slabs p procs domR domZ) {k : Nat} (hk : k < procs) (u : Mem K) :
    ∃ f s, calcH p u = .ok f ∧ calcH (slabPar p procs k) (slabMem p procs k u) = .ok s ∧
      (∀ c X Y, isH c → p.inside X Y → ¬ p.logical X Y → f c X Y = 0) ∧
      (∀ c X Y, ¬ isH c → f c X Y = u c X Y) ∧
      ∀ c X Y, isH c → (slabPar p procs k).inside X Y →
        s c X Y = if 0 ≤ Y ∧ Y < slabLen p procs then f c X (k * slabLen p procs + Y) else 0 := by
  obtain ⟨f, N, e1, e2, a1, a2, a3, a4, a5⟩ := calcH_window p S.whole
    (M := fun i j c x y => u c ((low p.nr 1 i : Nat) + x) ((low p.nz procs j : Nat) + y)) (m := u)
    ⟨fun _ _ _ _ _ _ _ _ _ => rfl, fun _ _ _ _ _ _ _ _ => rfl⟩
  have e3 := e2 0 k (by omega) hk
  rw [slabMem_win S, ← slabPar_eq S hk] at e3
  refine ⟨f, N 0 k, e1, e3, a4, a2, ?_⟩
  intro c X Y hc hin
  have kz : ((k + 1) * slabLen p procs : Nat) ≤ p.nz := by rw [S.len]; exact Nat.mul_le_mul_right _ hk
  have kz' : (k + 1) * slabLen p procs = k * slabLen p procs + slabLen p procs := Nat.succ_mul _ _
  have kc : (k : Int) * slabLen p procs = (k * slabLen p procs : Nat) := by push_cast; rfl
  have hin' : (-2 ≤ X ∧ X < p.nr + 2) ∧ (-2 ≤ Y ∧ Y < slabLen p procs + 2) := hin
  by_cases hl : (slabPar p procs k).logical X Y
  · have hl' : (0 ≤ X ∧ X < p.nr) ∧ (0 ≤ Y ∧ Y < slabLen p procs) := hl
    rw [if_pos hl'.2, a5 c 0 k X Y hc (by omega) hk (by rw [← slabPar_eq S hk]; exact hl), low_zero, low_mul S.p1 S.pz]
    congr 1
    simp
  · have hl' : ¬ ((0 ≤ X ∧ X < p.nr) ∧ (0 ≤ Y ∧ Y < slabLen p procs)) := hl
    rw [a3 c 0 k X Y hc (by omega) hk (by rw [← slabPar_eq S hk]; exact hin) (by rw [← slabPar_eq S hk]; exact hl)]
    by_cases hy : 0 ≤ Y ∧ Y < slabLen p procs
    · rw [if_pos hy, a4 c _ _ hc]
      · unfold Par.inside; omega
      · unfold Par.logical; omega
    · rw [if_neg hy]

theorem cutStep_total (S : Slabs p procs domR domZ) (u : Mem K) : ∃ u', CutStep p procs u u' := by
  have ex : ∀ k, ∃ f, calcE p (cut p procs k u) = .ok f := fun k => by
    obtain ⟨f, _, e, _⟩ := slabE S (k := 0) S.p1 (cut p procs k u)
    exact ⟨f, e⟩
  choose f hf using ex
  obtain ⟨u', _, e, _⟩ := slabH S (k := 0) S.p1 (glue p procs f u)
  exact ⟨u', f, hf, e⟩

theorem field_of {c : Comp} (h : isE c ∨ isH c) : c.isSource = false := by
  cases e : c.isSource
  · rfl
  · exact absurd h ((source_iff c).mp e)

/-- A step of all processes is the step of the cut area, and it can be done. -/
theorem step_holds (S : Slabs p procs domR domZ) {cap : Nat} {M : Nat → Solvers K} {u u' : Mem K} (H : HoldsMpi p procs domR domZ M u)
    {loc : Nat → Nat → Nat → Comp → Int → Int → K} {src : Comp → Int → Int → K} (hs : SameSourcesMpi p procs domR domZ loc src)
    (hu : CutStep p procs (setSources src u) u') :
    (∀ M', SolveMpi (mpiPar p procs domR domZ) procs domR domZ cap (fun k i j => setSources (loc k i j) (M k i j)) M' →
      HoldsMpi p procs domR domZ M' u') ∧
    (domR ≤ cap → ∃ M', SolveMpi (mpiPar p procs domR domZ) procs domR domZ cap (fun k i j => setSources (loc k i j) (M k i j)) M') := by
  rw [mpiPar_eq S]
  obtain ⟨f, hf, hH⟩ := hu
  have hz1 := S.hd.z1
  have isEm : ∀ c, c ∈ [Comp.er, .ep, .ez] ↔ isE c := fun c => by unfold isE; simp
  have isHm : ∀ c, c ∈ [Comp.hr, .hp, .hz, .fr, .fp, .fz] ↔ isH c := fun c => by unfold isH; simp
  have EH : ∀ c, isE c → ¬ isH c := fun c h => by unfold isE at h; unfold isH; rcases h with rfl | rfl | rfl <;> decide
  have keepS : ∀ (J : Comp → Int → Int → K) (m : Mem K) c x y, isE c ∨ isH c → setSources J m c x y = m c x y := by
    intro J m c x y h
    unfold setSources
    rw [field_of h]
    rfl
  have cutS : ∀ k (m : Mem K) c X Y, c.isMag = false → cut p procs k m c X Y = m c X Y := by
    intro k m c X Y h
    unfold cut
    rw [if_neg (fun n => by rw [h] at n; exact nomatch n.1)]
  have cutI : ∀ k (m : Mem K) c X Y, ((k * slabLen p procs : Nat) : Int) ≤ Y → Y < ((k + 1) * slabLen p procs : Nat) →
      cut p procs k m c X Y = m c X Y := by
    intro k m c X Y h1 h2
    unfold cut
    rw [if_neg (fun n => n.2 ⟨h1, h2⟩)]
  -- the solvers before the electric step
  have winL : ∀ k c i j x y, k < procs → i < domR → j < domZ → (winPar (slabPar p procs k) domR domZ i j).logical x y →
      setSources (loc k i j) (M k i j) c x y = setSources src u c (rowOf p domR i x) (colOf p procs domZ k j y) := by
    intro k c i j x y hk hi hj hl
    unfold setSources
    cases e : c.isSource
    · have ci := col_in S hi hj hl
      have := H k i j x y c e ((edgeOf_iff S k i j x y).mpr ⟨hk, hi, hj, Par.logical_edge hl⟩)
      rw [cutI _ _ _ _ _ ci.1 ci.2.1] at this
      exact this
    · exact hs k i j x y c e ((cellOfMpi_iff S k i j x y).mpr ⟨hk, hi, hj, hl⟩)
  have phaseE : ∀ k, k < procs → ∃ (N : Solvers K) (s : Mem K), (each domR domZ (fun i j => calcE (winPar (slabPar p procs k) domR domZ i j))
        (fun i j => setSources (loc k i j) (M k i j)) >>= loop (overlayComp (winPar (slabPar p procs k) domR domZ) domR domZ) [.er, .ep, .ez])
        = .ok N ∧
      (∀ c X Y, isE c → (slabPar p procs k).inside X Y →
        s c X Y = if 0 ≤ Y ∧ Y < slabLen p procs then f k c X (k * slabLen p procs + Y) else 0) ∧
      (∀ c i j x y, ¬ isE c → i < domR → j < domZ → N i j c x y = setSources (loc k i j) (M k i j) c x y) ∧
      (∀ c i j x y, isE c → i < domR → j < domZ → (winPar (slabPar p procs k) domR domZ i j).inside x y →
        ¬ Seam (slabPar p procs k) domR domZ i j x y → N i j c x y = s c (low p.nr domR i + x) (low (slabLen p procs) domZ j + y)) := by
    intro k hk
    have WE : WinE (slabPar p procs k) domR domZ (fun i j => setSources (loc k i j) (M k i j))
        (slabMem p procs k (cut p procs k (setSources src u))) := by
      constructor
      · intro c i j x y hc hi hj he
        rw [keepS _ _ _ _ _ (Or.inr hc), H k i j x y c (field_of (Or.inr hc)) ((edgeOf_iff S k i j x y).mpr ⟨hk, hi, hj, he⟩)]
        unfold slabMem cut
        rw [keepS _ _ _ _ _ (Or.inr hc)]
        rfl
      · intro c i j x y hi hj hl
        have ci := col_in S hi hj hl
        rw [winL k c i j x y hk hi hj hl]
        unfold slabMem
        exact (cutI _ _ _ _ _ ci.1 ci.2.1).symm
    obtain ⟨s, M1, e1, E1, a1, a2, a3, a4, a5⟩ := calcE_window _ (S.divided k) WE
    obtain ⟨N1, F1, b1⟩ := each_ok domR domZ (fun i j => calcE (winPar (slabPar p procs k) domR domZ i j)) M1 _ E1
    obtain ⟨N2, F2, c1, c2⟩ := overlays_window _ (S.divided k) s [.er, .ep, .ez] N1 (by decide)
      (fun c hc i j x y hi hj h1 h2 => by rw [b1 i j hi hj]; exact a3 c i j x y ((isEm c).mp hc) hi hj h1 h2)
      (fun c hc i j x y hi hj h1 => by rw [b1 i j hi hj]; exact a5 c i j x y ((isEm c).mp hc) hi hj h1)
      (fun c hc X Y => a4 c X Y ((isEm c).mp hc))
    obtain ⟨f', s', g1, g2, _, _, g3⟩ := slabE S hk (cut p procs k (setSources src u))
    have ef : f' = f k := Res.ok.inj (g1.symm.trans (hf k))
    have es : s' = s := Res.ok.inj (g2.symm.trans e1)
    subst ef es
    refine ⟨N2, s', by rw [F1, Res.ok_bind, F2], g3, ?_, ?_⟩
    · intro c i j x y hc hi hj
      rw [c1 i j c x y (fun n => hc ((isEm c).mp n)), b1 i j hi hj, a1 c i j x y hc hi hj]
    · intro c i j x y hc hi hj hin hns
      exact (c2 c ((isEm c).mpr hc) i j x y hi hj hin).1 hns
  have glE : ∀ c X Y, isE c → glue p procs f (setSources src u) c X Y = f (Y / slabLen p procs).toNat c X Y := by
    intro c X Y hc
    unfold glue
    rw [if_pos (isEl_iff.mpr hc)]
  have glN : ∀ c X Y, ¬ isE c → glue p procs f (setSources src u) c X Y = setSources src u c X Y := by
    intro c X Y hc
    unfold glue
    rw [if_neg (fun n => hc (isEl_iff.mp n))]
  have L2 := S.len2
  have xch : ∀ (cs : List Comp), cs.Nodup → ∀ N : Nat → Solvers K, _ := fun cs nd N =>
    exchange_ok (fun k => winPar (slabPar p procs k) domR domZ) procs domR domZ cap cs nd hz1 (hgt p.nr domR) (domLen p procs domZ)
      (fun k i j _ _ _ => ⟨winPar_nr _ _ _ _ _, (winPar_nz _ _ _ _ _).trans (S.hgt_z j)⟩)
      (fun i hi => by
        have b : low p.nr domR i + hgt p.nr domR i ≤ p.nr := ((S.divided 0).bounds hi hz1).1.2.1
        have r3 := S.r3
        omega)
      (by
        have b : low (slabLen p procs) domZ 0 + hgt (slabLen p procs) domZ 0 ≤ slabLen p procs := ((S.divided 0).bounds S.hd.r1 hz1).2.2.1
        rw [S.hgt_z] at b
        have z3 := S.z3
        have : slabLen p procs ≤ p.nz := Nat.div_le_self _ _
        omega) N
  -- after the exchange of the electric field
  have partE : ∀ M1 M2 : Nat → Solvers K,
      (∀ k, k < procs → (each domR domZ (fun i j => calcE (winPar (slabPar p procs k) domR domZ i j))
        (fun i j => setSources (loc k i j) (M k i j)) >>= loop (overlayComp (winPar (slabPar p procs k) domR domZ) domR domZ) [.er, .ep, .ez])
        = .ok (M1 k)) →
      Exchange (fun k => winPar (slabPar p procs k) domR domZ) procs domR domZ cap [.er, .ep, .ez] M1 M2 →
      ∀ k i j, k < procs → i < domR → j < domZ →
        (∀ c x y, isE c → (winPar (slabPar p procs k) domR domZ i j).edge x y →
          M2 k i j c x y = glue p procs f (setSources src u) c (rowOf p domR i x) (colOf p procs domZ k j y)) ∧
        (∀ c x y, ¬ isE c → M2 k i j c x y = setSources (loc k i j) (M k i j) c x y) := by
    intro M1 M2 h1 hx k i j hk hi hj
    have X := (xch [.er, .ep, .ez] (by decide) M1).1 M2 hx
    constructor
    · intro c x y hc he
      have ex : ∀ k, ∃ s : Int → Int → K, k < procs →
          (∀ X Y, (slabPar p procs k).inside X Y →
            s X Y = if 0 ≤ Y ∧ Y < slabLen p procs then f k c X (k * slabLen p procs + Y) else 0) ∧
          (∀ i j x y, i < domR → j < domZ → (winPar (slabPar p procs k) domR domZ i j).inside x y →
            ¬ Seam (slabPar p procs k) domR domZ i j x y →
            M1 k i j c x y = s (low p.nr domR i + x) (low (slabLen p procs) domZ j + y)) := by
        intro k
        by_cases hk : k < procs
        · obtain ⟨N, s, e, g1, _, g3⟩ := phaseE k hk
          have : M1 k = N := Res.ok.inj ((h1 k hk).symm.trans e)
          rw [this]
          exact ⟨s c, fun _ => ⟨fun X Y => g1 c X Y hc, fun i j x y => g3 c i j x y hc⟩⟩
        · exact ⟨fun _ _ => 0, fun n => absurd n hk⟩
      choose s hs using ex
      refine glue_window S c M1 M2 s (glue p procs f (setSources src u) c)
        (fun k i j x y hk hi hj => (hs k hk).2 i j x y hi hj) ?_ ?_
        (fun k hk i j x y hi hj => (X k hk).2 i j c x y hi hj ((isEm c).mpr hc)) k i j x y hk hi hj he
      · intro k X Y hk hin
        rw [(hs k hk).1 X Y hin]
        by_cases hy : 0 ≤ Y ∧ Y < slabLen p procs
        · rw [if_pos hy, if_pos hy, glE c _ _ hc]
          have : ((k * slabLen p procs + Y) / slabLen p procs : Int) = k := by
            rw [Int.add_comm, Int.add_mul_ediv_right _ _ (by omega), Int.ediv_eq_zero_of_lt hy.1 hy.2, Int.zero_add]
          rw [this, Int.toNat_natCast]
        · rw [if_neg hy, if_neg hy]
      · intro X Y hin hl
        rw [glE c _ _ hc]
        obtain ⟨f', _, g1, _, g2, _⟩ := slabE S (k := 0) S.p1 (cut p procs (Y / slabLen p procs).toNat (setSources src u))
        have : f' = f (Y / slabLen p procs).toNat := Res.ok.inj (g1.symm.trans (hf _))
        rw [← this]
        exact g2 c X Y hc hin hl
    · intro c x y hc
      obtain ⟨N, s, e, _, g2, _⟩ := phaseE k hk
      have : M1 k = N := Res.ok.inj ((h1 k hk).symm.trans e)
      rw [(X k hk).1 i j c x y hi hj (fun n => hc ((isEm c).mp n)), this, g2 c i j x y hc hi hj]
  -- the magnetic step
  have phaseH : ∀ M2 : Nat → Solvers K,
      (∀ k i j, k < procs → i < domR → j < domZ →
        (∀ c x y, isE c → (winPar (slabPar p procs k) domR domZ i j).edge x y →
          M2 k i j c x y = glue p procs f (setSources src u) c (rowOf p domR i x) (colOf p procs domZ k j y)) ∧
        (∀ c x y, ¬ isE c → M2 k i j c x y = setSources (loc k i j) (M k i j) c x y)) →
      ∀ k, k < procs → ∃ (N : Solvers K) (s : Mem K), (each domR domZ (fun i j => calcH (winPar (slabPar p procs k) domR domZ i j)) (M2 k) >>=
          loop (overlayComp (winPar (slabPar p procs k) domR domZ) domR domZ) [.hr, .hp, .hz, .fr, .fp, .fz]) = .ok N ∧
        (∀ c X Y, isH c → (slabPar p procs k).inside X Y →
          s c X Y = if 0 ≤ Y ∧ Y < slabLen p procs then u' c X (k * slabLen p procs + Y) else 0) ∧
        (∀ c i j x y, ¬ isH c → i < domR → j < domZ → N i j c x y = M2 k i j c x y) ∧
        (∀ c i j x y, isH c → i < domR → j < domZ → (winPar (slabPar p procs k) domR domZ i j).inside x y →
          ¬ Seam (slabPar p procs k) domR domZ i j x y →
          N i j c x y = s c (low p.nr domR i + x) (low (slabLen p procs) domZ j + y)) := by
    intro M2 h2 k hk
    have WH : WinH (slabPar p procs k) domR domZ (M2 k) (slabMem p procs k (glue p procs f (setSources src u))) := by
      constructor
      · intro c i j x y hc hi hj he
        exact (h2 k i j hk hi hj).1 c x y hc he
      · intro c i j x y hi hj hl
        by_cases hc : isE c
        · exact (h2 k i j hk hi hj).1 c x y hc (Par.logical_edge hl)
        · rw [(h2 k i j hk hi hj).2 c x y hc, winL k c i j x y hk hi hj hl]
          exact (glN c _ _ hc).symm
    obtain ⟨s, M3, e1, E1, a1, a2, a3, a4, a5⟩ := calcH_window _ (S.divided k) WH
    obtain ⟨N1, F1, b1⟩ := each_ok domR domZ (fun i j => calcH (winPar (slabPar p procs k) domR domZ i j)) M3 _ E1
    obtain ⟨N2, F2, c1, c2⟩ := overlays_window _ (S.divided k) s [.hr, .hp, .hz, .fr, .fp, .fz] N1 (by decide)
      (fun c hc i j x y hi hj h1 h2 => by rw [b1 i j hi hj]; exact a3 c i j x y ((isHm c).mp hc) hi hj h1 h2)
      (fun c hc i j x y hi hj h1 => by rw [b1 i j hi hj]; exact a5 c i j x y ((isHm c).mp hc) hi hj h1)
      (fun c hc X Y => a4 c X Y ((isHm c).mp hc))
    obtain ⟨f', s', g1, g2, _, _, g3⟩ := slabH S hk (glue p procs f (setSources src u))
    have ef : f' = u' := Res.ok.inj (g1.symm.trans hH)
    have es : s' = s := Res.ok.inj (g2.symm.trans e1)
    subst ef es
    refine ⟨N2, s', by rw [F1, Res.ok_bind, F2], g3, ?_, ?_⟩
    · intro c i j x y hc hi hj
      rw [c1 i j c x y (fun n => hc ((isHm c).mp n)), b1 i j hi hj, a1 c i j x y hc hi hj]
    · intro c i j x y hc hi hj hin hns
      exact (c2 c ((isHm c).mpr hc) i j x y hi hj hin).1 hns
  have uE : ∀ c X Y, ¬ isH c → u' c X Y = glue p procs f (setSources src u) c X Y := by
    obtain ⟨f', _, g1, _, _, g2, _⟩ := slabH S (k := 0) S.p1 (glue p procs f (setSources src u))
    rw [← Res.ok.inj (g1.symm.trans hH)]
    exact g2
  have uO : ∀ c X Y, isH c → p.inside X Y → ¬ p.logical X Y → u' c X Y = 0 := by
    obtain ⟨f', _, g1, _, g2, _⟩ := slabH S (k := 0) S.p1 (glue p procs f (setSources src u))
    rw [← Res.ok.inj (g1.symm.trans hH)]
    exact g2
  have isFm : ∀ c, c ∈ [Comp.fr, .fp, .fz] ↔ isH c ∧ c.isMag = false := fun c => by unfold isH; cases c <;> simp [Comp.isMag]
  constructor
  · rintro M' ⟨M1, M2, M3, h1, x1, h3, x2⟩ k i j x y c hc he
    obtain ⟨hk, hi, hj, hed⟩ := (edgeOf_iff S k i j x y).mp he
    have A := partE M1 M2 h1 x1
    have X := (xch [.fr, .fp, .fz] (by decide) M3).1 M' x2
    by_cases hHc : isH c
    · by_cases hm : c.isMag = true
      · obtain ⟨N, s, e, g1, g2, g3⟩ := phaseH M2 A k hk
        have eN : M3 k = N := Res.ok.inj ((h3 k hk).symm.trans e)
        have hns : ¬ Seam (slabPar p procs k) domR domZ i j x y := not_seam _ _ _ _ _ _ _ hed
        rw [(X k hk).1 i j c x y hi hj (fun n => by have := ((isFm c).mp n).2; rw [hm] at this; exact nomatch this), eN,
          g3 c i j x y hHc hi hj hed.1 hns]
        have bnd := (S.divided k).bounds hi hj
        rw [show (slabPar p procs k).nz = slabLen p procs from rfl, show (slabPar p procs k).nr = p.nr from rfl] at bnd
        have hin := hed.1
        unfold Par.inside at hin
        rw [winPar_nr, winPar_nz, show (slabPar p procs k).nz = slabLen p procs from rfl, show (slabPar p procs k).nr = p.nr from rfl] at hin
        have ei : (slabPar p procs k).inside (low p.nr domR i + x) (low (slabLen p procs) domZ j + y) := by
          show (-2 ≤ _ ∧ _ < (p.nr : Int) + 2) ∧ (-2 ≤ _ ∧ _ < (slabLen p procs : Int) + 2)
          omega
        rw [g1 c _ _ hHc ei]
        unfold cut colOf rowOf
        have kc : (k : Int) * slabLen p procs = (k * slabLen p procs : Nat) := by push_cast; rfl
        have ke : (k + 1) * slabLen p procs = k * slabLen p procs + slabLen p procs := Nat.succ_mul _ _
        by_cases hy : 0 ≤ (low (slabLen p procs) domZ j : Int) + y ∧ (low (slabLen p procs) domZ j : Int) + y < slabLen p procs
        · rw [if_pos hy, if_neg (fun n => n.2 (by rw [ke]; omega))]
        · rw [if_neg hy, if_pos ⟨hm, by rw [ke]; omega⟩]
      · have hm' : c.isMag = false := by cases h : c.isMag; rfl; exact absurd h hm
        rw [cutS _ _ _ _ _ hm']
        have ex : ∀ k, ∃ s : Int → Int → K, k < procs →
            (∀ X Y, (slabPar p procs k).inside X Y →
              s X Y = if 0 ≤ Y ∧ Y < slabLen p procs then u' c X (k * slabLen p procs + Y) else 0) ∧
            (∀ i j x y, i < domR → j < domZ → (winPar (slabPar p procs k) domR domZ i j).inside x y →
              ¬ Seam (slabPar p procs k) domR domZ i j x y →
              M3 k i j c x y = s (low p.nr domR i + x) (low (slabLen p procs) domZ j + y)) := by
          intro k
          by_cases hk : k < procs
          · obtain ⟨N, s, e, g1, _, g3⟩ := phaseH M2 A k hk
            have : M3 k = N := Res.ok.inj ((h3 k hk).symm.trans e)
            rw [this]
            exact ⟨s c, fun _ => ⟨fun X Y => g1 c X Y hHc, fun i j x y => g3 c i j x y hHc⟩⟩
          · exact ⟨fun _ _ => 0, fun n => absurd n hk⟩
        choose s hs using ex
        exact glue_window S c M3 M' s (u' c) (fun k i j x y hk hi hj => (hs k hk).2 i j x y hi hj)
          (fun k X Y hk hin => (hs k hk).1 X Y hin) (fun X Y => uO c X Y hHc)
          (fun k hk i j x y hi hj => (X k hk).2 i j c x y hi hj ((isFm c).mpr ⟨hHc, hm'⟩)) k i j x y hk hi hj hed
    · have hE : isE c := by
        by_contra n
        have := (source_iff c).mpr (by tauto)
        rw [this] at hc
        exact nomatch hc
      have hm' : c.isMag = false := by
        cases h : c.isMag
        · rfl
        · exact absurd (isMag_isH h) hHc
      obtain ⟨N, s, e, g1, g2, g3⟩ := phaseH M2 A k hk
      have eN : M3 k = N := Res.ok.inj ((h3 k hk).symm.trans e)
      rw [cutS _ _ _ _ _ hm', (X k hk).1 i j c x y hi hj (fun n => hHc ((isFm c).mp n).1), eN, g2 c i j x y hHc hi hj,
        (A k i j hk hi hj).1 c x y hE hed, uE c _ _ hHc]
  · intro hcap
    have e1 : ∀ k, ∃ N, k < procs → (each domR domZ (fun i j => calcE (winPar (slabPar p procs k) domR domZ i j))
        (fun i j => setSources (loc k i j) (M k i j)) >>= loop (overlayComp (winPar (slabPar p procs k) domR domZ) domR domZ) [.er, .ep, .ez])
        = .ok N := by
      intro k
      by_cases hk : k < procs
      · obtain ⟨N, _, e, _⟩ := phaseE k hk
        exact ⟨N, fun _ => e⟩
      · exact ⟨fun _ _ _ _ _ => 0, fun n => absurd n hk⟩
    choose M1 h1 using e1
    obtain ⟨M2, x1⟩ := (xch [.er, .ep, .ez] (by decide) M1).2 hcap
    have A := partE M1 M2 h1 x1
    have e3 : ∀ k, ∃ N, k < procs → (each domR domZ (fun i j => calcH (winPar (slabPar p procs k) domR domZ i j)) (M2 k) >>=
          loop (overlayComp (winPar (slabPar p procs k) domR domZ) domR domZ) [.hr, .hp, .hz, .fr, .fp, .fz]) = .ok N := by
      intro k
      by_cases hk : k < procs
      · obtain ⟨N, _, e, _⟩ := phaseH M2 A k hk
        exact ⟨N, fun _ => e⟩
      · exact ⟨fun _ _ _ _ _ => 0, fun n => absurd n hk⟩
    choose M3 h3 using e3
    obtain ⟨M', x2⟩ := (xch [.fr, .fp, .fz] (by decide) M3).2 hcap
    exact ⟨M', M1, M2, M3, h1, x1, h3, x2⟩

end

end Yee
end Pico
