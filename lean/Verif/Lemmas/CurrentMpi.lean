import Verif.Spec.CurrentMpi
import Verif.Lemmas.CurrentStep
import Verif.Lemmas.FieldMpi
import Verif.Lemmas.FieldMpiStep
import Verif.Props.CurrentStep

/-! The exchange of currents between processes in terms of the deposits of all domains. -/

set_option linter.unusedSimpArgs false
set_option linter.unusedVariables false
set_option linter.unusedSectionVars false

namespace Pico
namespace SMB

variable {T : Type _} [AddCommMonoid T]

/-- The pass does not touch the overlay columns at the two ends. -/
theorem pass_outer (os : Nat) (xs ys : Nat → Nat) (nr nz : Nat) (G : Good nr nz xs ys) (hys : ∀ j, j < nz → os ≤ ys j)
    (l : List (Nat × Nat)) (hl : ∀ p, p ∈ l → p.1 < nr ∧ p.2 < nz) (m : DLoc → T) (i j r c : Nat) (hi : i < nr) (hj : j < nz)
    (h : (j = 0 ∧ c < os) ∨ (j + 1 = nz ∧ ys j + os ≤ c)) :
    (l.foldl (stAt os xs ys nr nz) m) (i, j, r, c) = m (i, j, r, c) := by
  have hn : ∀ i j, i + 1 < nr → j + 1 < nz → xs i = xs 0 ∧ ys j = xs 0 := by
    intro i j hi hj
    rcases G with g | g | g
    · omega
    · omega
    · exact ⟨g.1 i (by omega), g.2 j (by omega)⟩
  rw [foldl_events]
  have none : ∀ e ∈ l.flatMap (evAt nr nz), partner os xs ys (xs 0) e (i, j, r, c) = none := by
    intro e he
    obtain ⟨⟨a, b⟩, hp, he⟩ := List.mem_flatMap.mp he
    have hb := hl _ hp
    dsimp only at hb
    have Y : b = j → ys b = ys j := fun h => by rw [h]
    have Y1 := hys j hj
    have N := hn a b
    unfold evAt at he
    simp only [List.mem_append] at he
    rcases he with he | he | he
    · split at he
      · obtain rfl := List.mem_singleton.mp he
        dsimp only [partner]
        rw [if_neg]
        rintro ⟨rfl, h1, h2⟩
        omega
      · simp at he
    · split at he
      · obtain rfl := List.mem_singleton.mp he
        dsimp only [partner]
        split_ifs <;> first | rfl | (exfalso; omega)
      · simp at he
    · split at he
      · obtain rfl := List.mem_singleton.mp he
        dsimp only [partner]
        split_ifs <;> first | rfl | (exfalso; omega)
      · simp at he
  generalize l.flatMap (evAt nr nz) = L at none
  induction L generalizing m with
  | nil => rfl
  | cons e L ih =>
    rw [List.foldl_cons, ih _ (fun e h => none e (List.mem_cons_of_mem _ h)), addFrom, none e List.mem_cons_self]
    exact add_zero _

end SMB

namespace Yee

open SMB VB

variable {K : Type _}

section
variable [AddCommMonoid K]

/-- Column `y` of domain column `j` is one of the overlay columns at the two ends of the area. -/
def Outer (p : Par K) (domZ j : Nat) (y : Int) : Prop := (j = 0 ∧ y < 0) ∨ (j + 1 = domZ ∧ (hgt p.nz domZ j : Int) ≤ y)

/-- The exchange between the domains leaves the overlay columns at the ends as they are. -/
theorem overlay_outer (p : Par K) {domR domZ : Nat} (hd : Divided p domR domZ) (c : Comp) (M M' : Solvers K)
    (h : overlayComp (winPar p domR domZ) domR domZ c M = .ok M') (i j : Nat) (x y : Int) (hi : i < domR) (hj : j < domZ)
    (hin : (winPar p domR domZ i j).inside x y) (ho : Outer p domZ j y) : M' i j c x y = M i j c x y := by
  have hx : ∀ i, hgt p.nr domR i = p.nr / domR := hgt_const hd.r1 hd.r4
  have hy : ∀ i, hgt p.nz domZ i = p.nz / domZ := hgt_const hd.z1 hd.z4
  have w2 : 2 ≤ p.nz / domZ := (Nat.le_div_iff_mul_le hd.z1).mpr hd.z2
  generalize hD : (fun i j => toGrid (winPar p domR domZ i j) (M i j) c) = D at *
  have eD : ∀ i j, D i j = toGrid (winPar p domR domZ i j) (M i j) c := fun i j => by rw [← hD]
  have L : Layout D domR domZ 2 (fun _ => p.nr / domR) (fun _ => p.nz / domZ) :=
    ⟨fun _ _ _ _ => by rw [eD]; rfl, fun i j _ _ => by rw [eD, ← hx i]; exact winPar_nr p domR domZ i j,
      fun i j _ _ => by rw [eD, ← hy j]; exact winPar_nz p domR domZ i j⟩
  have G : Good domR domZ (fun _ => p.nr / domR) (fun _ => p.nz / domZ) := by
    have := hd.good
    have e1 : hgt p.nr domR = fun _ => p.nr / domR := funext hx
    have e2 : hgt p.nz domZ = fun _ => p.nz / domZ := funext hy
    rwa [e1, e2] at this
  have E := pass_exists D 2 _ _ domR domZ L G
  unfold overlayComp at h
  rw [hD, E, Res.ok_bind] at h
  rw [← Res.ok.inj h]
  show ofGrid (winPar p domR domZ i j) (M i j) c (ofMemD D _ i j) c x y = _
  have eq : ∀ m', ofGrid (winPar p domR domZ i j) (M i j) c (ofMemD D m' i j) c x y = m' (i, j, (x + 2).toNat, (y + 2).toNat) :=
    fun m' => if_pos ⟨rfl, hin⟩
  unfold Outer at ho
  rw [hy] at ho
  unfold Par.inside at hin
  rw [winPar_nr, winPar_nz, hx, hy] at hin
  rw [eq, pass_outer 2 _ _ domR domZ G (fun _ _ => w2) _ (fun p => mem_sweep.mp) _ i j _ _ hi hj (by omega)]
  show (D i j).cell _ _ = _
  rw [eD]
  show M i j c (((x + 2).toNat : Int) - 2) (((y + 2).toNat : Int) - 2) = _
  congr 1 <;> omega

theorem overlays_outer (p : Par K) {domR domZ : Nat} (hd : Divided p domR domZ) (i j : Nat) (x y : Int) (hi : i < domR) (hj : j < domZ)
    (hin : (winPar p domR domZ i j).inside x y) (ho : Outer p domZ j y) (c : Comp) :
    ∀ (cs : List Comp) (M M' : Solvers K), loop (overlayComp (winPar p domR domZ) domR domZ) cs M = .ok M' →
      M' i j c x y = M i j c x y := by
  intro cs
  induction cs with
  | nil =>
    intro M M' h
    rw [← Res.ok.inj h]
  | cons c' cs ih =>
    intro M M' h
    rw [loop_cons] at h
    cases e : overlayComp (winPar p domR domZ) domR domZ c' M with
    | fatal => rw [e] at h; cases h
    | ub => rw [e] at h; cases h
    | ok M1 =>
      rw [e, Res.ok_bind] at h
      rw [ih M1 M' h]
      by_cases hc : c = c'
      · subst hc
        exact overlay_outer p hd c M M1 e i j x y hi hj hin ho
      · unfold overlayComp at e
        cases e2 : overlayPass domR domZ (fun i j => toGrid (winPar p domR domZ i j) (M i j) c') with
        | fatal => rw [e2] at e; cases e
        | ub => rw [e2] at e; cases e
        | ok D =>
          rw [e2, Res.ok_bind] at e
          rw [← Res.ok.inj e]
          exact if_neg (fun k => hc k.1)

end

section
variable [Field K] [LinearOrder K] [IsStrictOrderedRing K] [FloorRing K]

/-- The step of one process. -/
theorem process_gather (dist : Ctx K → List (VB.Part K) → Mem K → Res (Mem K)) (p : Par K) {procs domR domZ : Nat}
    (S : Slabs p procs domR domZ) (e : Consts K) (k : Nat) (ps : Nat → Nat → List (VB.Part K)) (M : Solvers K)
    (f : Comp → Nat → Nat → Int → Int → K)
    (hr : ∀ i j, i < domR → j < domZ → ∃ r, dist (mpiCtx p procs domR domZ e k i j) (ps i j)
        (resetCurrent (mpiCtx p procs domR domZ e k i j).g (M i j)) = .ok r ∧
      (∀ c, isJ c → ∀ x y, (winPar (slabPar p procs k) domR domZ i j).inside x y →
        r c x y = f c i j (low p.nr domR i + x) (low (slabLen p procs) domZ j + y)) ∧
      ∀ c, ¬ isJ c → ∀ x y, r c x y = M i j c x y)
    (hout : ∀ c, isJ c → ∀ i j x y, i < domR → j < domZ → ¬ (winPar (slabPar p procs k) domR domZ i j).inside x y →
      f c i j (low p.nr domR i + x) (low (slabLen p procs) domZ j + y) = 0) :
    ∃ M', processCurrent dist p procs domR domZ e k ps M = .ok M' ∧
      (∀ i j c x y, i < domR → j < domZ → ¬ isJ c → M' i j c x y = M i j c x y) ∧
      (∀ c, isJ c → ∀ i j x y, CellOf (slabPar p procs k) domR domZ i j x y →
        M' i j c x y = ∑ a ∈ Finset.range domR, ∑ b ∈ Finset.range domZ,
          if !Antidiagonal i j a b then f c a b (low p.nr domR i + x) (low (slabLen p procs) domZ j + y) else 0) ∧
      ∀ c, isJ c → ∀ i j x y, i < domR → j < domZ → (winPar (slabPar p procs k) domR domZ i j).inside x y →
        Outer (slabPar p procs k) domZ j y → M' i j c x y = f c i j (low p.nr domR i + x) (low (slabLen p procs) domZ j + y) := by
  have hd := S.divided k
  choose! r h1 h2 h3 using hr
  obtain ⟨M1, e1, v1⟩ := each_ok domR domZ
    (fun i j m => dist (mpiCtx p procs domR domZ e k i j) (ps i j) (resetCurrent (mpiCtx p procs domR domZ e k i j).g m))
    r M (fun i j hi hj => h1 i j hi hj)
  obtain ⟨M2, e2, f2, w2⟩ := overlays_gather (slabPar p procs k) hd f [.jr, .jp, .jz] M1 (by decide)
    (fun c hc i j x y hi hj hin => by
      rw [v1 i j hi hj]
      exact h2 i j hi hj c (by simpa [isJ] using hc) x y hin)
    (fun c hc i j x y hi hj hin => hout c (by simpa [isJ] using hc) i j x y hi hj hin)
  refine ⟨M2, ?_, ?_, ?_, ?_⟩
  · unfold processCurrent
    rw [e1, Res.ok_bind, mpiPar_eq S]
    exact e2
  · intro i j c x y hi hj hc
    rw [f2 i j c x y (by simpa [isJ] using hc), v1 i j hi hj, h3 i j hi hj c hc]
  · intro c hc i j x y hcell
    have := w2 c (by simpa [isJ] using hc) i j x y hcell
    rw [sum_anti domR domZ i j hcell.1 hcell.2.1] at this
    exact add_right_cancel this
  · intro c hc i j x y hi hj hin ho
    rw [overlays_outer _ hd i j x y hi hj hin ho c _ M1 M2 e2, v1 i j hi hj]
    exact h2 i j hi hj c hc x y hin

/-- The step of all processes. -/
theorem mpi_gather (dist : Ctx K → List (VB.Part K) → Mem K → Res (Mem K)) (p : Par K) {procs domR domZ : Nat} (cap : Nat)
    (S : Slabs p procs domR domZ) (e : Consts K) (ps : Nat → Nat → Nat → List (VB.Part K)) (M : Nat → Solvers K)
    (f : Comp → Nat → Nat → Nat → Int → Int → K)
    (hr : ∀ k i j, k < procs → i < domR → j < domZ → ∃ r, dist (mpiCtx p procs domR domZ e k i j) (ps k i j)
        (resetCurrent (mpiCtx p procs domR domZ e k i j).g (M k i j)) = .ok r ∧
      (∀ c, isJ c → ∀ x y, (winPar (slabPar p procs k) domR domZ i j).inside x y →
        r c x y = f c k i j (rowOf p domR i x) (colOf p procs domZ k j y)) ∧
      ∀ c, ¬ isJ c → ∀ x y, r c x y = M k i j c x y)
    (hout : ∀ c, isJ c → ∀ k i j x y, k < procs → i < domR → j < domZ → ¬ (winPar (slabPar p procs k) domR domZ i j).inside x y →
      f c k i j (rowOf p domR i x) (colOf p procs domZ k j y) = 0) :
    (∀ M', CurrentMpi dist p procs domR domZ cap e ps M M' → ∀ k, k < procs →
      (∀ i j c x y, i < domR → j < domZ → ¬ isJ c → M' k i j c x y = M k i j c x y) ∧
      ∀ c, isJ c → ∀ i j x y, CellOfMpi p procs domR domZ k i j x y →
        M' k i j c x y = ∑ l ∈ Finset.range procs, ∑ a ∈ Finset.range domR, ∑ b ∈ Finset.range domZ,
          if !CornerMpi domZ k i j l a b then f c l a b (rowOf p domR i x) (colOf p procs domZ k j y) else 0) ∧
    (domR ≤ cap → ∃ M', CurrentMpi dist p procs domR domZ cap e ps M M') := by
  have one : ∀ k, k < procs → ∃ M', processCurrent dist p procs domR domZ e k (ps k) (M k) = .ok M' ∧
      (∀ i j c x y, i < domR → j < domZ → ¬ isJ c → M' i j c x y = M k i j c x y) ∧
      (∀ c, isJ c → ∀ i j x y, CellOf (slabPar p procs k) domR domZ i j x y →
        M' i j c x y = ∑ a ∈ Finset.range domR, ∑ b ∈ Finset.range domZ,
          if !Antidiagonal i j a b then f c k a b (rowOf p domR i x) (colOf p procs domZ k j y) else 0) ∧
      ∀ c, isJ c → ∀ i j x y, i < domR → j < domZ → (winPar (slabPar p procs k) domR domZ i j).inside x y →
        Outer (slabPar p procs k) domZ j y → M' i j c x y = f c k i j (rowOf p domR i x) (colOf p procs domZ k j y) := by
    intro k hk
    exact process_gather dist p S e k (ps k) (M k) (fun c a b X Y => f c k a b X (k * slabLen p procs + Y))
      (fun i j hi hj => hr k i j hk hi hj) (fun c hc i j x y hi hj hin => hout c hc k i j x y hk hi hj hin)
  choose! M1 o1 o2 o3 o4 using one
  have H : ∀ k i j, k < procs → i < domR → j < domZ → (mpiPar p procs domR domZ k i j).nr = hgt p.nr domR i ∧
      (mpiPar p procs domR domZ k i j).nz = domLen p procs domZ := by
    intro k i j _ _ _
    rw [mpiPar_eq S]
    exact ⟨winPar_nr _ _ _ _ _, (winPar_nz _ _ _ _ _).trans (S.hgt_z j)⟩
  have B1 : ∀ i, i < domR → hgt p.nr domR i + 4 < 2 ^ 31 := by
    intro i hi
    have := (S.hd.bounds hi S.hd.z1).1.2.1
    have h2 : low p.nr domR i + hgt p.nr domR i ≤ p.nr := this
    have := S.r3
    omega
  have B2 : domLen p procs domZ + 4 < 2 ^ 31 := by
    have h1 := S.len
    have h2 := S.dlen
    have h3 := S.z3
    have a1 : domLen p procs domZ ≤ slabLen p procs := by rw [h2]; exact Nat.le_mul_of_pos_left _ S.hd.z1
    have a2 : slabLen p procs ≤ p.nz := by rw [h1]; exact Nat.le_mul_of_pos_left _ S.p1
    omega
  refine ⟨?_, ?_⟩
  · rintro M' ⟨M2, h1, h2⟩ k hk
    have eM : ∀ l, l < procs → M2 l = M1 l := fun l hl => Res.ok.inj ((h1 l hl).symm.trans (o1 l hl))
    obtain ⟨x1, x2⟩ := (exchange_ok (mpiPar p procs domR domZ) procs domR domZ cap [.jr, .jp, .jz] (by decide) S.hd.z1
      (fun i => hgt p.nr domR i) (domLen p procs domZ) H B1 B2 M2).1 M' h2 k hk
    refine ⟨?_, ?_⟩
    · intro i j c x y hi hj hc
      rw [x1 i j c x y hi hj (by simpa [isJ] using hc), eM k hk, o2 k hk i j c x y hi hj hc]
    · intro c hc i j x y hcell
      obtain ⟨_, hi, hj, hx, hy⟩ := hcell
      rw [S.hgt_z] at hy
      have d2 := S.dlen2
      have dl := S.dlen
      have lz := S.low_z
      have rows := fun a (ha : a < domR) => (S.hd.bounds ha S.hd.z1).1
      have hR : ∀ a, hgt p.nr domR a = p.nr / domR := hgt_const S.hd.r1 S.hd.r4
      have lR : ∀ a, low p.nr domR a = a * (p.nr / domR) := low_mul S.hd.r1 S.hd.r4
      have R2 : 2 ≤ p.nr / domR := (Nat.le_div_iff_mul_le S.hd.r1).mpr S.hd.r2
      generalize hX : rowOf p domR i x = X
      generalize hY : colOf p procs domZ k j y = Y
      have hX' : X = i * (p.nr / domR : Nat) + x := by rw [← hX, rowOf, lR]; push_cast; rfl
      have hY' : Y = k * slabLen p procs + (j * domLen p procs domZ + y) := by rw [← hY, colOf, lz]; push_cast; rfl
      have far : ∀ l a b, l < procs → a < domR → b < domZ →
          ¬ (((a : Int) * (p.nr / domR : Nat) - 2 ≤ X ∧ X < a * (p.nr / domR : Nat) + (p.nr / domR : Nat) + 2) ∧
            ((l : Int) * slabLen p procs + b * domLen p procs domZ - 2 ≤ Y ∧
              Y < l * slabLen p procs + b * domLen p procs domZ + domLen p procs domZ + 2)) → f c l a b X Y = 0 := by
        intro l a b hl ha hb hn
        have h0 := hout c hc l a b (X - a * (p.nr / domR : Nat)) (Y - (l * slabLen p procs + b * domLen p procs domZ)) hl ha hb (fun hin => hn (by
          unfold Par.inside at hin
          rw [winPar_nr, winPar_nz, show (slabPar p procs l).nz = slabLen p procs from rfl, show (slabPar p procs l).nr = p.nr from rfl,
            S.hgt_z, hR] at hin
          omega))
        have a1 : rowOf p domR a (X - a * (p.nr / domR : Nat)) = X := by rw [rowOf, lR]; push_cast; omega
        have a2 : colOf p procs domZ l b (Y - (l * slabLen p procs + b * domLen p procs domZ)) = Y := by rw [colOf, lz]; push_cast; omega
        rwa [a1, a2] at h0
      have jj : (j : Int) * domLen p procs domZ + domLen p procs domZ ≤ slabLen p procs := by
        have : (j + 1) * domLen p procs domZ ≤ domZ * domLen p procs domZ := Nat.mul_le_mul_right _ hj
        rw [← dl] at this
        have h2 : (j + 1) * domLen p procs domZ = j * domLen p procs domZ + domLen p procs domZ := by ring
        rw [h2] at this
        exact_mod_cast this
      have j0 : (0 : Int) ≤ (j : Int) * domLen p procs domZ := by positivity
      have len2 := S.len2
      -- the other processes
      have other : ∀ l, l < procs → l ≠ k → l ≠ k + 1 → l + 1 ≠ k → ∀ a b, a < domR → b < domZ → f c l a b X Y = 0 := by
        intro l hl n1 n2 n3 a b ha hb
        refine far l a b hl ha hb (fun h => ?_)
        have h := h.2
        have bb : (b : Int) * domLen p procs domZ + domLen p procs domZ ≤ slabLen p procs := by
          have : (b + 1) * domLen p procs domZ ≤ domZ * domLen p procs domZ := Nat.mul_le_mul_right _ hb
          rw [← dl] at this
          have h2 : (b + 1) * domLen p procs domZ = b * domLen p procs domZ + domLen p procs domZ := by ring
          rw [h2] at this
          exact_mod_cast this
        have b0 : (0 : Int) ≤ (b : Int) * domLen p procs domZ := by positivity
        rcases Nat.lt_or_ge l k with h1 | h1
        · have h2 : (l + 2) * slabLen p procs ≤ k * slabLen p procs := Nat.mul_le_mul_right _ (by omega)
          have h3 : (l + 2) * slabLen p procs = l * slabLen p procs + 2 * slabLen p procs := by ring
          rw [h3] at h2
          have h2 : (l : Int) * slabLen p procs + 2 * slabLen p procs ≤ k * slabLen p procs := by exact_mod_cast h2
          omega
        · have h2 : (k + 2) * slabLen p procs ≤ l * slabLen p procs := Nat.mul_le_mul_right _ (by omega)
          have h3 : (k + 2) * slabLen p procs = k * slabLen p procs + 2 * slabLen p procs := by ring
          rw [h3] at h2
          have h2 : (k : Int) * slabLen p procs + 2 * slabLen p procs ≤ l * slabLen p procs := by exact_mod_cast h2
          omega
      have rowfar : ∀ l a b, l < procs → a < domR → b < domZ → a ≠ i → a ≠ i + 1 → a + 1 ≠ i → f c l a b X Y = 0 := by
        intro l a b hl ha hb n1 n2 n3
        refine far l a b hl ha hb (fun h => ?_)
        have h := h.1
        rw [hR] at hx
        rcases Nat.lt_or_ge a i with h1 | h1
        · have h2 : (a + 2) * (p.nr / domR) ≤ i * (p.nr / domR) := Nat.mul_le_mul_right _ (by omega)
          have h3 : (a + 2) * (p.nr / domR) = a * (p.nr / domR) + 2 * (p.nr / domR) := by ring
          rw [h3] at h2
          have h2 : (a : Int) * (p.nr / domR : Nat) + 2 * (p.nr / domR : Nat) ≤ i * (p.nr / domR : Nat) := by exact_mod_cast h2
          omega
        · have h2 : (i + 2) * (p.nr / domR) ≤ a * (p.nr / domR) := Nat.mul_le_mul_right _ (by omega)
          have h3 : (i + 2) * (p.nr / domR) = i * (p.nr / domR) + 2 * (p.nr / domR) := by ring
          rw [h3] at h2
          have h2 : (i : Int) * (p.nr / domR : Nat) + 2 * (p.nr / domR : Nat) ≤ a * (p.nr / domR : Nat) := by exact_mod_cast h2
          omega
      have up : ((k + 1 : Nat) : Int) * slabLen p procs = k * slabLen p procs + slabLen p procs := by push_cast; ring
      -- the next process
      have next : k + 1 < procs → (∑ a ∈ Finset.range domR, ∑ b ∈ Finset.range domZ,
          if !CornerMpi domZ k i j (k+1) a b then f c (k+1) a b X Y else 0) =
          if j = domZ - 1 ∧ (domLen p procs domZ : Int) - 2 ≤ y then f c (k+1) i 0 X Y else 0 := by
        intro hk1
        have z : ∀ a b, a < domR → b < domZ → ¬ (a = i ∧ b = 0 ∧ j = domZ - 1 ∧ (domLen p procs domZ : Int) - 2 ≤ y) →
            (if !CornerMpi domZ k i j (k+1) a b then f c (k+1) a b X Y else 0) = 0 := by
          intro a b ha hb hn
          by_cases hcor : CornerMpi domZ k i j (k+1) a b = true
          · rw [hcor]; rfl
          · rw [if_pos (by simpa using hcor)]
            by_cases nr : a ≠ i ∧ a ≠ i + 1 ∧ a + 1 ≠ i
            · exact rowfar _ a b hk1 ha hb nr.1 nr.2.1 nr.2.2
            · refine far _ a b hk1 ha hb (fun h => ?_)
              have h := h.2
              rw [up] at h
              have b1 : b ≠ 0 → (domLen p procs domZ : Int) ≤ (b : Int) * domLen p procs domZ := by
                intro hb0
                have : 1 * domLen p procs domZ ≤ b * domLen p procs domZ := Nat.mul_le_mul_right _ (by omega)
                rw [Nat.one_mul] at this
                exact_mod_cast this
              have b0 : (0 : Int) ≤ (b : Int) * domLen p procs domZ := by positivity
              have j1 : j ≠ domZ - 1 → (j : Int) * domLen p procs domZ + 2 * domLen p procs domZ ≤ slabLen p procs := by
                intro hj0
                have : (j + 2) * domLen p procs domZ ≤ domZ * domLen p procs domZ := Nat.mul_le_mul_right _ (by omega)
                rw [← dl] at this
                have h2 : (j + 2) * domLen p procs domZ = j * domLen p procs domZ + 2 * domLen p procs domZ := by ring
                rw [h2] at this
                exact_mod_cast this
              have bz : b = 0 := by by_contra hb0; have := b1 hb0; omega
              have jz : j = domZ - 1 := by by_contra hj0; have := j1 hj0; omega
              have ai : a = i := by
                by_contra ha0
                refine hcor ?_
                unfold CornerMpi
                exact decide_eq_true (Or.inr ⟨Or.inl ⟨rfl, by omega, bz⟩, by omega⟩)
              exact hn ⟨ai, bz, jz, by omega⟩
        rw [Finset.sum_eq_single i, Finset.sum_eq_single 0]
        · by_cases hq : j = domZ - 1 ∧ (domLen p procs domZ : Int) - 2 ≤ y
          · rw [if_pos hq, if_pos]
            unfold CornerMpi Antidiagonal
            simp
          · rw [if_neg hq]
            exact z i 0 hi S.hd.z1 (fun h => hq h.2.2)
        · intro b hb hne
          exact z i b hi (Finset.mem_range.mp hb) (fun h => hne h.2.1)
        · intro h
          exact absurd (Finset.mem_range.mpr S.hd.z1) h
        · intro a ha hne
          refine Finset.sum_eq_zero fun b hb => z a b (Finset.mem_range.mp ha) (Finset.mem_range.mp hb) (fun h => hne h.1)
        · intro h
          exact absurd (Finset.mem_range.mpr hi) h
      -- the previous process
      have prev : 0 < k → (∑ a ∈ Finset.range domR, ∑ b ∈ Finset.range domZ,
          if !CornerMpi domZ k i j (k-1) a b then f c (k-1) a b X Y else 0) =
          if j = 0 ∧ y < 2 then f c (k-1) i (domZ-1) X Y else 0 := by
        intro hk1
        have dn : (k : Int) * slabLen p procs = ((k - 1 : Nat) : Int) * slabLen p procs + slabLen p procs := by
          obtain ⟨l, rfl⟩ : ∃ l, k = l + 1 := ⟨k - 1, by omega⟩
          rw [show (l + 1 - 1 : Nat) = l by omega]
          push_cast
          ring
        have z : ∀ a b, a < domR → b < domZ → ¬ (a = i ∧ b = domZ - 1 ∧ j = 0 ∧ y < 2) →
            (if !CornerMpi domZ k i j (k-1) a b then f c (k-1) a b X Y else 0) = 0 := by
          intro a b ha hb hn
          by_cases hcor : CornerMpi domZ k i j (k-1) a b = true
          · rw [hcor]; rfl
          · rw [if_pos (by simpa using hcor)]
            by_cases nr : a ≠ i ∧ a ≠ i + 1 ∧ a + 1 ≠ i
            · exact rowfar _ a b (by omega) ha hb nr.1 nr.2.1 nr.2.2
            · refine far _ a b (by omega) ha hb (fun h => ?_)
              have h := h.2
              rw [dn] at hY'
              have b1 : (b : Int) * domLen p procs domZ + domLen p procs domZ ≤ slabLen p procs := by
                have : (b + 1) * domLen p procs domZ ≤ domZ * domLen p procs domZ := Nat.mul_le_mul_right _ hb
                rw [← dl] at this
                have h2 : (b + 1) * domLen p procs domZ = b * domLen p procs domZ + domLen p procs domZ := by ring
                rw [h2] at this
                exact_mod_cast this
              have b2 : b ≠ domZ - 1 → (b : Int) * domLen p procs domZ + 2 * domLen p procs domZ ≤ slabLen p procs := by
                intro hj0
                have : (b + 2) * domLen p procs domZ ≤ domZ * domLen p procs domZ := Nat.mul_le_mul_right _ (by omega)
                rw [← dl] at this
                have h2 : (b + 2) * domLen p procs domZ = b * domLen p procs domZ + 2 * domLen p procs domZ := by ring
                rw [h2] at this
                exact_mod_cast this
              have j1 : j ≠ 0 → (domLen p procs domZ : Int) ≤ (j : Int) * domLen p procs domZ := by
                intro hb0
                have : 1 * domLen p procs domZ ≤ j * domLen p procs domZ := Nat.mul_le_mul_right _ (by omega)
                rw [Nat.one_mul] at this
                exact_mod_cast this
              have bz : b = domZ - 1 := by by_contra hb0; have := b2 hb0; omega
              have jz : j = 0 := by by_contra hj0; have := j1 hj0; omega
              have ai : a = i := by
                by_contra ha0
                refine hcor ?_
                unfold CornerMpi
                exact decide_eq_true (Or.inr ⟨Or.inr ⟨by omega, jz, by omega⟩, by omega⟩)
              exact hn ⟨ai, bz, jz, by omega⟩
        have hz := S.hd.z1
        rw [Finset.sum_eq_single i, Finset.sum_eq_single (domZ - 1)]
        · by_cases hq : j = 0 ∧ y < 2
          · rw [if_pos hq, if_pos]
            have n1 : ¬ (k - 1 = k) := by omega
            have n2 : ¬ (k - 1 = k + 1) := by omega
            unfold CornerMpi Antidiagonal
            simp [n1, n2]
          · rw [if_neg hq]
            exact z i (domZ - 1) hi (by omega) (fun h => hq h.2.2)
        · intro b hb hne
          exact z i b hi (Finset.mem_range.mp hb) (fun h => hne h.2.1)
        · intro h
          exact absurd (Finset.mem_range.mpr (show domZ - 1 < domZ by omega)) h
        · intro a ha hne
          refine Finset.sum_eq_zero fun b hb => z a b (Finset.mem_range.mp ha) (Finset.mem_range.mp hb) (fun h => hne h.1)
        · intro h
          exact absurd (Finset.mem_range.mpr hi) h
      have hins : (mpiPar p procs domR domZ k i j).inside x y := by
        have := H k i j hk hi hj
        unfold Par.inside
        omega
      rw [x2 i j c x y hi hj (by simpa [isJ] using hc) hins, sum_three procs k hk _ (fun l hl n1 n2 n3 =>
        Finset.sum_eq_zero fun a ha => Finset.sum_eq_zero fun b hb => by
          rw [other l hl n1 n2 n3 a b (Finset.mem_range.mp ha) (Finset.mem_range.mp hb)]
          exact ite_self _)]
      have own : M2 k i j c x y = ∑ a ∈ Finset.range domR, ∑ b ∈ Finset.range domZ,
          if !CornerMpi domZ k i j k a b then f c k a b X Y else 0 := by
        rw [eM k hk, o3 k hk c hc i j x y ⟨hi, hj, hx, by
          show 0 ≤ y ∧ y < (hgt (slabLen p procs) domZ j : Int)
          rw [S.hgt_z]; exact hy⟩, hX, hY]
        refine Finset.sum_congr rfl fun a _ => Finset.sum_congr rfl fun b _ => ?_
        have : CornerMpi domZ k i j k a b = Antidiagonal i j a b := by
          unfold CornerMpi
          cases Antidiagonal i j a b <;> simp
        rw [this]
      rw [own, add_assoc, add_comm (ite _ _ _) (ite _ _ _)]
      congr 1
      congr 1
      · by_cases hk1 : k + 1 < procs
        · rw [if_pos hk1, next hk1]
          by_cases hq : j = domZ - 1 ∧ (domLen p procs domZ : Int) - 2 ≤ y
          · rw [if_pos hq, if_pos ⟨hk1, hq⟩, eM _ hk1]
            have ins : (winPar (slabPar p procs (k+1)) domR domZ i 0).inside x (y - domLen p procs domZ) := by
              unfold Par.inside
              rw [winPar_nr, winPar_nz, show (slabPar p procs (k+1)).nz = slabLen p procs from rfl,
                show (slabPar p procs (k+1)).nr = p.nr from rfl, S.hgt_z]
              omega
            rw [o4 _ hk1 c hc i 0 x _ hi S.hd.z1 ins (Or.inl ⟨rfl, by omega⟩), hX]
            have : colOf p procs domZ (k+1) 0 (y - domLen p procs domZ) = Y := by
              have e1 : (j : Int) * domLen p procs domZ + domLen p procs domZ = slabLen p procs := by
                have h2 : (j + 1) * domLen p procs domZ = domZ * domLen p procs domZ := by rw [hq.1, show domZ - 1 + 1 = domZ from by have := S.hd.z1; omega]
                rw [← dl] at h2
                have h3 : (j + 1) * domLen p procs domZ = j * domLen p procs domZ + domLen p procs domZ := by ring
                rw [h3] at h2
                exact_mod_cast h2
              rw [colOf, lz, up, hY']
              push_cast
              omega
            rw [this]
          · rw [if_neg hq, if_neg (fun h => hq h.2)]
        · rw [if_neg hk1, if_neg (fun h => hk1 h.1)]
      · by_cases hk1 : 0 < k
        · rw [if_pos hk1, prev hk1]
          by_cases hq : j = 0 ∧ y < 2
          · have hz := S.hd.z1
            rw [if_pos hq, if_pos ⟨hk1, hq⟩, eM _ (by omega)]
            have ins : (winPar (slabPar p procs (k-1)) domR domZ i (domZ-1)).inside x (domLen p procs domZ + y) := by
              unfold Par.inside
              rw [winPar_nr, winPar_nz, show (slabPar p procs (k-1)).nz = slabLen p procs from rfl,
                show (slabPar p procs (k-1)).nr = p.nr from rfl, S.hgt_z]
              omega
            rw [o4 _ (by omega) c hc i (domZ-1) x _ hi (by omega) ins (Or.inr ⟨by omega, by
              show (hgt (slabLen p procs) domZ (domZ-1) : Int) ≤ _
              rw [S.hgt_z]; omega⟩), hX]
            have : colOf p procs domZ (k-1) (domZ-1) (domLen p procs domZ + y) = Y := by
              have e1 : ((domZ - 1 : Nat) : Int) * domLen p procs domZ + domLen p procs domZ = slabLen p procs := by
                have h2 : (domZ - 1 + 1) * domLen p procs domZ = domZ * domLen p procs domZ := by rw [show domZ - 1 + 1 = domZ by omega]
                rw [← dl] at h2
                have h3 : (domZ - 1 + 1) * domLen p procs domZ = (domZ - 1) * domLen p procs domZ + domLen p procs domZ := by ring
                rw [h3] at h2
                exact_mod_cast h2
              obtain ⟨l, rfl⟩ : ∃ l, k = l + 1 := ⟨k - 1, by omega⟩
              rw [show l + 1 - 1 = l by omega]
              have e2 : ((l + 1 : Nat) : Int) * slabLen p procs = l * slabLen p procs + slabLen p procs := by push_cast; ring
              rw [colOf, lz, hY', e2, hq.1]
              push_cast at e1 ⊢
              omega
            rw [this]
          · rw [if_neg hq, if_neg (fun h => hq h.2)]
        · rw [if_neg hk1, if_neg (fun h => hk1 h.1)]
  · intro hc
    obtain ⟨M', h⟩ := (exchange_ok (mpiPar p procs domR domZ) procs domR domZ cap [.jr, .jp, .jz] (by decide) S.hd.z1
      (fun i => hgt p.nr domR i) (domLen p procs domZ) H B1 B2 M1).2 hc
    exact ⟨M', M1, o1, h⟩

end
end Yee
end Pico
