import Verif.Lemmas.FieldMpiStep

/-!
# C92 — dividing the area between processes

`MpiRun` is a run of all processes with some schedule of their messages, `wholeRun` the run of one undivided process.
The code does not exchange the magnetic field of the solver between processes, so the fields differ from the second step
on.
-/

set_option linter.unusedSimpArgs false
set_option linter.unusedVariables false
set_option linter.unusedSectionVars false

namespace Pico
namespace Yee

open SMB

variable {K : Type _} [Field K] [CharZero K] {p : Par K} {procs domR domZ : Nat}

/-- **C92 (what the processes compute)**  For every number of steps, schedule and buffering, every currents and media, the
domains of all the processes hold the fields of an undivided area whose electric step takes the magnetic field beyond the
borders of the slabs as zero. -/
theorem C92_cut_partial (S : Slabs p procs domR domZ) (cap : Nat) (loc : Nat → Nat → Nat → Nat → Comp → Int → Int → K)
    (src : Nat → Comp → Int → Int → K) (hs : ∀ t, SameSourcesMpi p procs domR domZ (loc t) (src t)) :
    ∃ u : Nat → Mem K, (∀ c X Y, u 0 c X Y = 0) ∧ (∀ t, CutStep p procs (setSources (src t) (u t)) (u (t + 1))) ∧
      ∀ n M, MpiRun (mpiPar p procs domR domZ) procs domR domZ cap loc n M → HoldsMpi p procs domR domZ M (u n) := by
  have ex : ∀ t u, ∃ u', CutStep p procs (setSources (src t) u) u' := fun t u => cutStep_total S _
  choose next hn using ex
  let u : Nat → Mem K := fun n => Nat.rec (fun _ _ _ => 0) (fun t v => next t v) n
  refine ⟨u, fun _ _ _ => rfl, fun t => hn t (u t), ?_⟩
  intro n M hr
  induction hr with
  | start =>
    intro k i j x y c _ _
    unfold cut
    split_ifs <;> rfl
  | @step t M M' _ hst ih => exact (step_holds S ih (hs t) (hn t (u t))).1 M' hst

/-- **C92 (existence)**  If the library buffers one message per row of domains, the processes can do any number of steps. -/
theorem C92_exists (S : Slabs p procs domR domZ) {cap : Nat} (hc : domR ≤ cap) (loc : Nat → Nat → Nat → Nat → Comp → Int → Int → K)
    (src : Nat → Comp → Int → Int → K) (hs : ∀ t, SameSourcesMpi p procs domR domZ (loc t) (src t)) (n : Nat) :
    ∃ M, MpiRun (mpiPar p procs domR domZ) procs domR domZ cap loc n M := by
  obtain ⟨u, u0, u1, hu⟩ := C92_cut_partial S cap loc src hs
  induction n with
  | zero => exact ⟨_, MpiRun.start⟩
  | succ n ih =>
    obtain ⟨M, hM⟩ := ih
    obtain ⟨M', h'⟩ := (step_holds S (hu n M hM) (hs n) (u1 n)).2 hc
    exact ⟨M', hM.step h'⟩

/-- The electric step reads the cell, its left neighbour and the one below. -/
theorem calcE_local (hr : 1 ≤ p.nr) (hr' : p.nr < 2 ^ 32) (hz : 1 ≤ p.nz) (hz' : p.nz < 2 ^ 32) {a b a' b' : Mem K}
    (ea : calcE p a = .ok a') (eb : calcE p b = .ok b') {X Y : Int} (hl : p.logical X Y)
    (h0 : ∀ c, ¬ (c = .fr ∨ c = .fp ∨ c = .fz) → a c X Y = b c X Y)
    (hy : ∀ c, c.isMag = true → a c X (Y - 1) = b c X (Y - 1)) (hx : ∀ c, c.isMag = true → a c (X - 1) Y = b c (X - 1) Y) :
    ∀ c, isE c → a' c X Y = b' c X Y := by
  obtain ⟨a1, e1, _, _, k1⟩ := calcE_eq p hr hr' hz hz' a
  obtain ⟨b1, e2, _, _, k2⟩ := calcE_eq p hr hr' hz hz' b
  rw [← Res.ok.inj (e1.symm.trans ea), ← Res.ok.inj (e2.symm.trans eb)]
  have l1 := k1 X Y hl
  have l2 := k2 X Y hl
  have nE : ∀ o v, newE p a X Y o v = newE p b X Y o v := by
    intro o v
    unfold newE
    rw [h0 .eps (by decide), h0 .sig (by decide)]
  have xr : xR p a X Y = xR p b X Y := by unfold xR; rw [h0 .jr (by decide), h0 .hp (by decide), hy .hp rfl]
  have xp : xP p a X Y = xP p b X Y := by
    unfold xP
    rw [h0 .jp (by decide), h0 .hr (by decide), hy .hr rfl, h0 .hz (by decide), hx .hz rfl]
  have xz : xZ p a X Y = xZ p b X Y := by unfold xZ; rw [h0 .jz (by decide), h0 .hp (by decide), hx .hp rfl]
  have xa : xA p a X Y = xA p b X Y := by unfold xA; rw [h0 .jz (by decide), h0 .hp (by decide)]
  intro c hc
  rcases hc with rfl | rfl | rfl
  · rw [l1.1, l2.1, nE, xr, h0 .er (by decide)]
  · rw [l1.2.1, l2.2.1, nE, xp, h0 .ep (by decide)]
  · rw [l1.2.2, l2.2.2, nE, nE, xz, xa, h0 .ez (by decide)]

/-- The magnetic step reads the cell, its right neighbour and the one above. -/
theorem calcH_local (hr : 1 ≤ p.nr) {a b a' b' : Mem K} (ea : calcH p a = .ok a') (eb : calcH p b = .ok b') {X Y : Int}
    (hl : p.logical X Y) (h0 : ∀ c, isE c ∨ c.isMag = true → a c X Y = b c X Y) (hy : ∀ c, isE c → a c X (Y + 1) = b c X (Y + 1))
    (hx : ∀ c, isE c → a c (X + 1) Y = b c (X + 1) Y) : ∀ c, isH c → a' c X Y = b' c X Y := by
  obtain ⟨a1, e1, _, k1, _⟩ := calcH_eq p hr a
  obtain ⟨b1, e2, _, k2, _⟩ := calcH_eq p hr b
  rw [← Res.ok.inj (e1.symm.trans ea), ← Res.ok.inj (e2.symm.trans eb)]
  obtain ⟨⟨m1, m2⟩, m3, m4, m5, m6⟩ := k1 X Y hl
  obtain ⟨⟨n1, n2⟩, n3, n4, n5, n6⟩ := k2 X Y hl
  have er : isE Comp.er := Or.inl rfl
  have ep : isE Comp.ep := Or.inr (Or.inl rfl)
  have ez : isE Comp.ez := Or.inr (Or.inr rfl)
  have xr : aR p a X Y = aR p b X Y := by unfold aR; rw [h0 .ep (Or.inl ep), hy .ep ep]
  have xp : aP p a X Y = aP p b X Y := by
    unfold aP
    rw [h0 .ez (Or.inl ez), h0 .er (Or.inl er), hx .ez ez, hy .er er]
  have xz : aZ p a X Y = aZ p b X Y := by unfold aZ; rw [h0 .ep (Or.inl ep), hx .ep ep]
  have hr := h0 .hr (Or.inr rfl)
  have hp := h0 .hp (Or.inr rfl)
  have hz := h0 .hz (Or.inr rfl)
  intro c hc
  rcases hc with rfl | rfl | rfl | rfl | rfl | rfl
  · rw [m1, n1, xr, hr]
  · rw [m3, n3, xp, hp]
  · rw [m5, n5, xz, hz]
  · rw [m2, n2, xr, hr]
  · rw [m4, n4, xp, hp]
  · rw [m6, n6, xz, hz]

/-- The slab of a column. -/
theorem slab_of (S : Slabs p procs domR domZ) {Y : Int} (h0 : 0 ≤ Y) (h1 : Y < p.nz) :
    ∃ k : Nat, k < procs ∧ (Y / slabLen p procs).toNat = k ∧ ((k * slabLen p procs : Nat) : Int) ≤ Y ∧
      Y < ((k + 1) * slabLen p procs : Nat) := by
  obtain ⟨y, rfl⟩ := Int.eq_ofNat_of_zero_le h0
  have L2 := S.len2
  have hy : y < p.nz := by omega
  refine ⟨y / slabLen p procs, ?_, ?_, ?_, ?_⟩
  · rw [Nat.div_lt_iff_lt_mul (by omega), ← S.len]
    exact hy
  · rw [show ((y : Nat) : Int) / (slabLen p procs : Int) = ((y / slabLen p procs : Nat) : Int) from (Int.natCast_ediv _ _).symm]
    exact Int.toNat_natCast _
  · have := Nat.div_mul_le_self y (slabLen p procs)
    exact_mod_cast this
  · have : y < (y / slabLen p procs + 1) * slabLen p procs := by
      rw [Nat.mul_comm]
      exact Nat.lt_mul_div_succ y (by omega)
    exact_mod_cast this

theorem far_agrees (S : Slabs p procs domR domZ) (src : Nat → Comp → Int → Int → K) (u : Nat → Mem K)
    (u0 : ∀ c X Y, u 0 c X Y = 0) (u1 : ∀ t, CutStep p procs (setSources (src t) (u t)) (u (t + 1))) (n : Nat) :
    ∃ m, wholeRun p src n = .ok m ∧
      (∀ c X Y, isE c ∨ isH c → p.inside X Y → ¬ p.logical X Y → u n c X Y = 0 ∧ m c X Y = 0) ∧
      (∀ c X Y, isE c ∨ isH c → p.logical X Y → FarFromBorders p procs n Y → u n c X Y = m c X Y) := by
  have w := S.whole
  have r1 : 1 ≤ p.nr := by have := w.r2; omega
  have z1 : 1 ≤ p.nz := by have := w.z2; have := w.z1; omega
  have r3 := w.r3
  have z3 := w.z3
  induction n with
  | zero => exact ⟨fun _ _ _ => 0, rfl, fun c X Y _ _ _ => ⟨u0 c X Y, rfl⟩, fun c X Y _ _ _ => u0 c X Y⟩
  | succ n ih =>
    obtain ⟨m, em, out, far⟩ := ih
    obtain ⟨f, hf, hH⟩ := u1 n
    obtain ⟨m1, e1, i1, i2, i3⟩ := calcE_eq p r1 (by omega) z1 (by omega) (setSources (src n) m)
    obtain ⟨m2, e2, j1, j2, j3⟩ := calcH_eq p r1 m1
    have keepS : ∀ (m : Mem K) c x y, isE c ∨ isH c → setSources (src n) m c x y = m c x y := by
      intro m c x y h
      unfold setSources
      rw [field_of h]
      rfl
    have fout : ∀ k c X Y, isE c → p.inside X Y → ¬ p.logical X Y → f k c X Y = 0 := by
      intro k c X Y hc hin hl
      obtain ⟨f', q1, _, q2, _⟩ := calcE_eq p r1 (by omega) z1 (by omega) (cut p procs k (setSources (src n) (u n)))
      rw [← Res.ok.inj (q1.symm.trans (hf k))]
      exact q2 c X Y hc hin hl
    have glE : ∀ c X Y, isE c → glue p procs f (setSources (src n) (u n)) c X Y = f (Y / slabLen p procs).toNat c X Y := by
      intro c X Y hc
      unfold glue
      rw [if_pos (isEl_iff.mpr hc)]
    have glN : ∀ c X Y, ¬ isE c → glue p procs f (setSources (src n) (u n)) c X Y = setSources (src n) (u n) c X Y := by
      intro c X Y hc
      unfold glue
      rw [if_neg (fun n => hc (isEl_iff.mp n))]
    obtain ⟨u2, q1, q2, q3, q4⟩ := calcH_eq p r1 (glue p procs f (setSources (src n) (u n)))
    have eu : u2 = u (n + 1) := Res.ok.inj (q1.symm.trans hH)
    rw [eu] at q2 q3 q4
    have EH : ∀ c, isE c → ¬ isH c := fun c h => by unfold isE at h; unfold isH; rcases h with rfl | rfl | rfl <;> decide
    -- the electric field after the step
    have elec : ∀ c X Y, isE c → p.inside X Y → ¬ (p.logical X Y ∧ ∃ k, 0 < k ∧ k < procs ∧
        Y < ((k * slabLen p procs : Nat) : Int) + n ∧ ((k * slabLen p procs : Nat) : Int) < Y + n) →
        glue p procs f (setSources (src n) (u n)) c X Y = m1 c X Y := by
      intro c X Y hc hin hnot
      rw [glE c X Y hc]
      by_cases hl : p.logical X Y
      · have hl' := hl
        unfold Par.logical at hl'
        obtain ⟨k, hk, ek, k1, k2⟩ := slab_of S hl'.2.1 hl'.2.2
        rw [ek]
        have farY : FarFromBorders p procs n Y := by
          intro b b0 bp
          by_contra q
          exact hnot ⟨hl, b, b0, bp, by omega, by omega⟩
        have magEq : ∀ c, c.isMag = true → ∀ X' Y', p.inside X' Y' →
            (p.logical X' Y' → FarFromBorders p procs n Y') → (n = 0 ∨ (((k * slabLen p procs : Nat) : Int) ≤ Y' ∧
              Y' < ((k + 1) * slabLen p procs : Nat)) ∨ ¬ p.logical X' Y') →
            cut p procs k (setSources (src n) (u n)) c X' Y' = setSources (src n) m c X' Y' := by
          intro c hm X' Y' hin' hfar' hk'
          have hcH : isE c ∨ isH c := Or.inr (isMag_isH hm)
          rw [keepS m c _ _ hcH]
          unfold cut
          rw [keepS (u n) c _ _ hcH]
          by_cases hl2 : p.logical X' Y'
          · rcases hk' with h | h | h
            · subst h
              have z : u 0 c X' Y' = m c X' Y' := far c X' Y' hcH hl2 (hfar' hl2)
              rw [← z]
              split_ifs
              · exact (u0 c X' Y').symm
              · rfl
            · rw [if_neg (fun q => q.2 h)]
              exact far c X' Y' hcH hl2 (hfar' hl2)
            · exact absurd hl2 h
          · rw [(out c X' Y' hcH hin' hl2).1, (out c X' Y' hcH hin' hl2).2]
            split_ifs <;> rfl
        refine calcE_local r1 (by omega) z1 (by omega) (hf k) e1 hl ?_ ?_ ?_ c hc
        · intro c' hc'
          by_cases hm : c'.isMag = true
          · exact magEq c' hm X Y hin (fun _ => farY) (Or.inr (Or.inl ⟨k1, k2⟩))
          · unfold cut
            rw [if_neg (fun q => hm q.1)]
            unfold setSources
            cases e : c'.isSource
            · have hEH : isE c' ∨ isH c' := by
                by_contra q
                have := (source_iff c').mpr q
                rw [e] at this
                exact nomatch this
              exact far c' X Y hEH hl farY
            · rfl
        · intro c' hm
          refine magEq c' hm X (Y - 1) (by unfold Par.inside at *; omega) ?_ ?_
          · intro hl2 b b0 bp
            have := farY b b0 bp
            by_contra q
            by_cases n0 : n = 0
            · omega
            · exact hnot ⟨hl, b, b0, bp, by omega, by omega⟩
          · by_cases n0 : n = 0
            · exact Or.inl n0
            · by_cases hk0 : k = 0
              · by_cases y0 : Y = 0
                · refine Or.inr (Or.inr ?_)
                  unfold Par.logical
                  omega
                · refine Or.inr (Or.inl ?_)
                  subst hk0
                  simp only [Nat.zero_mul] at k1 ⊢
                  omega
              · refine Or.inr (Or.inl ?_)
                have : Y ≠ ((k * slabLen p procs : Nat) : Int) := fun q => hnot ⟨hl, k, by omega, hk, by omega, by omega⟩
                omega
        · intro c' hm
          exact magEq c' hm (X - 1) Y (by unfold Par.inside at *; omega) (fun _ => farY) (Or.inr (Or.inl ⟨k1, k2⟩))
      · rw [fout _ c X Y hc hin hl, i2 c X Y hc hin hl]
    refine ⟨m2, ?_, ?_, ?_⟩
    · rw [wholeRun, em, Res.ok_bind, e1, Res.ok_bind, e2]
    · intro c X Y hc hin hl
      rcases hc with hE | hHc
      · rw [q2 c X Y (EH c hE), j1 c X Y (EH c hE), i2 c X Y hE hin hl, glE c X Y hE]
        exact ⟨fout _ c X Y hE hin hl, rfl⟩
      · exact ⟨q4 c X Y hHc hin hl, j3 c X Y hHc hin hl⟩
    · intro c X Y hc hl hfar
      have hl' := hl
      unfold Par.logical at hl'
      have E0 : ∀ c, isE c → glue p procs f (setSources (src n) (u n)) c X Y = m1 c X Y := by
        intro c hE
        refine elec c X Y hE (Par.logical_edge hl).1 ?_
        rintro ⟨_, b, b0, bp, h1, h2⟩
        have := hfar b b0 bp
        push_cast at this h1 h2
        omega
      rcases hc with hE | hHc
      · rw [q2 c X Y (EH c hE), j1 c X Y (EH c hE)]
        exact E0 c hE
      · refine calcH_local r1 hH e2 hl ?_ ?_ ?_ c hHc
        · rintro c' (hE | hm)
          · exact E0 c' hE
          · have nE : ¬ isE c' := fun q => EH c' q (isMag_isH hm)
            have hcH : isE c' ∨ isH c' := Or.inr (isMag_isH hm)
            rw [glN c' X Y nE, i1 c' X Y nE, keepS _ _ _ _ hcH, keepS _ _ _ _ hcH]
            refine far c' X Y hcH hl ?_
            intro b b0 bp
            have := hfar b b0 bp
            push_cast at this ⊢
            omega
        · intro c' hE
          refine elec c' X (Y + 1) hE (by unfold Par.inside; omega) ?_
          rintro ⟨_, b, b0, bp, h1, h2⟩
          have := hfar b b0 bp
          push_cast at this h1 h2
          omega
        · intro c' hE
          refine elec c' (X + 1) Y hE (by unfold Par.inside; omega) ?_
          rintro ⟨_, b, b0, bp, h1, h2⟩
          have := hfar b b0 bp
          push_cast at this h1 h2
          omega

/-- **C92 (partial)**  After `n` steps of all processes, with any schedule, every field component of every cell that is far
enough from the borders between processes (`n - 1` columns to the right, `n` to the left) is that of the undivided run.
Missing: the cells near the borders, where it is false from the second step on (`C92_border_fails`). -/
theorem C92_far_partial (S : Slabs p procs domR domZ) {cap : Nat} {loc : Nat → Nat → Nat → Nat → Comp → Int → Int → K}
    {src : Nat → Comp → Int → Int → K} (hs : ∀ t, SameSourcesMpi p procs domR domZ (loc t) (src t)) {n : Nat} {M : Nat → Solvers K}
    (hr : MpiRun (mpiPar p procs domR domZ) procs domR domZ cap loc n M) :
    ∃ m, wholeRun p src n = .ok m ∧ ∀ k i j x y c, c.isSource = false → CellOfMpi p procs domR domZ k i j x y →
      FarFromBorders p procs n (colOf p procs domZ k j y) → M k i j c x y = m c (rowOf p domR i x) (colOf p procs domZ k j y) := by
  obtain ⟨u, u0, u1, hu⟩ := C92_cut_partial S cap loc src hs
  obtain ⟨m, e, _, far⟩ := far_agrees S src u u0 u1 n
  refine ⟨m, e, ?_⟩
  intro k i j x y c hc hcell hfar
  obtain ⟨hk, hi, hj, hl⟩ := (cellOfMpi_iff S k i j x y).mp hcell
  have ci := col_in S hi hj hl
  have kz : ((k + 1) * slabLen p procs : Nat) ≤ p.nz := by rw [S.len]; exact Nat.mul_le_mul_right _ hk
  have hEH : isE c ∨ isH c := by
    by_contra q
    have := (source_iff c).mpr q
    rw [hc] at this
    exact nomatch this
  rw [hu n M hr k i j x y c hc ((edgeOf_iff S k i j x y).mpr ⟨hk, hi, hj, Par.logical_edge hl⟩)]
  unfold cut
  rw [if_neg (fun q => q.2 ⟨ci.1, ci.2.1⟩)]
  refine far c _ _ hEH ?_ hfar
  unfold Par.logical
  have := ci.1
  omega

/-- **C92 (first step)**  After the first step all the cells of all processes have the fields of the undivided run. -/
theorem C92_first_partial (S : Slabs p procs domR domZ) {cap : Nat} {loc : Nat → Nat → Nat → Nat → Comp → Int → Int → K}
    {src : Nat → Comp → Int → Int → K} (hs : ∀ t, SameSourcesMpi p procs domR domZ (loc t) (src t)) {M : Nat → Solvers K}
    (hr : MpiRun (mpiPar p procs domR domZ) procs domR domZ cap loc 1 M) :
    ∃ m, wholeRun p src 1 = .ok m ∧ ∀ k i j x y c, c.isSource = false → CellOfMpi p procs domR domZ k i j x y →
      M k i j c x y = m c (rowOf p domR i x) (colOf p procs domZ k j y) := by
  obtain ⟨m, e, h⟩ := C92_far_partial S hs hr
  refine ⟨m, e, fun k i j x y c hc hcell => h k i j x y c hc hcell ?_⟩
  intro b _ _
  push_cast
  omega

/-- **C92 is false of the code.**  After the second step, whatever the schedule, the radial electric field in the first
column of every process but the first differs from that of the undivided run by the magnetic field of the neighbouring
column after the first step, times the factor of the curl. -/
theorem C92_border_fails (S : Slabs p procs domR domZ) {cap : Nat} {loc : Nat → Nat → Nat → Nat → Comp → Int → Int → K}
    {src : Nat → Comp → Int → Int → K} (hs : ∀ t, SameSourcesMpi p procs domR domZ (loc t) (src t)) {M : Nat → Solvers K}
    (hr : MpiRun (mpiPar p procs domR domZ) procs domR domZ cap loc 2 M) :
    ∃ m1 m2, wholeRun p src 1 = .ok m1 ∧ wholeRun p src 2 = .ok m2 ∧ ∀ k i x, 0 < k → CellOfMpi p procs domR domZ k i 0 x 0 →
      (p.walls.rr = true → rowOf p domR i x < p.nr - 1) →
      M k i 0 .er x 0 = m2 .er (rowOf p domR i x) (k * slabLen p procs) -
        m1 .hp (rowOf p domR i x) (k * slabLen p procs - 1) / p.dz *
          koefH p (src 1 .eps (rowOf p domR i x) (k * slabLen p procs)) (src 1 .sig (rowOf p domR i x) (k * slabLen p procs)) := by
  obtain ⟨u, u0, u1, hu⟩ := C92_cut_partial S cap loc src hs
  obtain ⟨m1, e1, out1, far1⟩ := far_agrees S src u u0 u1 1
  obtain ⟨m2, e2, _, _⟩ := far_agrees S src u u0 u1 2
  refine ⟨m1, m2, e1, e2, ?_⟩
  intro k i x k0 hcell hwall
  obtain ⟨hk, hi, hj, hl⟩ := (cellOfMpi_iff S k i 0 x 0).mp hcell
  have ci := col_in S hi hj hl
  have w := S.whole
  have r1 : 1 ≤ p.nr := by have := w.r2; omega
  have z1 : 1 ≤ p.nz := by have := w.z2; have := w.z1; omega
  have r3 := w.r3
  have z3 := w.z3
  have L2 := S.len2
  have kz : ((k + 1) * slabLen p procs : Nat) ≤ p.nz := by rw [S.len]; exact Nat.mul_le_mul_right _ hk
  have ke : (k + 1) * slabLen p procs = k * slabLen p procs + slabLen p procs := Nat.succ_mul _ _
  have kc : (k : Int) * slabLen p procs = (k * slabLen p procs : Nat) := by push_cast; rfl
  have kpos : slabLen p procs ≤ k * slabLen p procs := Nat.le_mul_of_pos_left _ k0
  have ecol : colOf p procs domZ k 0 0 = k * slabLen p procs := by
    unfold colOf
    rw [low_zero]
    simp
  rw [ecol] at ci
  rw [hu 2 M hr k i 0 x 0 .er rfl ((edgeOf_iff S k i 0 x 0).mpr ⟨hk, hi, hj, Par.logical_edge hl⟩), ecol]
  generalize hX : rowOf p domR i x = X at *
  generalize hY : (k : Int) * slabLen p procs = Y at *
  have lg : p.logical X Y := by unfold Par.logical; omega
  have lg1 : p.logical X (Y - 1) := by unfold Par.logical; omega
  have far : ∀ Z, FarFromBorders p procs 1 Z := by
    intro Z b _ _
    push_cast
    omega
  obtain ⟨f, hf, hH⟩ := u1 1
  have keepS : ∀ (m : Mem K) c x y, isE c ∨ isH c → setSources (src 1) m c x y = m c x y := by
    intro m c x y h
    unfold setSources
    rw [field_of h]
    rfl
  obtain ⟨_, q1, q2, _, _⟩ := calcH_eq p r1 (glue p procs f (setSources (src 1) (u 1)))
  rw [Res.ok.inj (q1.symm.trans hH)] at q2
  obtain ⟨a1, g1, _, _, g2⟩ := calcE_eq p r1 (by omega) z1 (by omega) (cut p procs k (setSources (src 1) (u 1)))
  rw [Res.ok.inj (g1.symm.trans (hf k))] at g2
  obtain ⟨b1, s1, s2, _, s3⟩ := calcE_eq p r1 (by omega) z1 (by omega) (setSources (src 1) m1)
  obtain ⟨b2, t1, t2, _, _⟩ := calcH_eq p r1 b1
  have em2 : m2 = b2 := by
    rw [wholeRun, e1, Res.ok_bind, s1, Res.ok_bind, t1] at e2
    exact (Res.ok.inj e2).symm
  have her : isE Comp.er := Or.inl rfl
  have nH : ¬ isH Comp.er := by unfold isH; decide
  have ek : (Y / slabLen p procs).toNat = k := by
    rw [← hY, Int.mul_ediv_cancel _ (by omega)]
    exact Int.toNat_natCast _
  have gl : glue p procs f (setSources (src 1) (u 1)) .er X Y = f k .er X Y := by
    unfold glue
    rw [if_pos (isEl_iff.mpr her), ek]
  have cE : cut p procs k (u 2) .er X Y = u 2 .er X Y := by
    unfold cut
    rw [if_neg (fun q => by exact nomatch q.1)]
  have cond : (((begin_ p.walls.z0 : Nat) : Int) ≤ Y ∧ Y < ((end_ p.walls.zz p.nz : Nat) : Int)) ∧
      ((((begin_ p.walls.r0 : Nat) : Int) ≤ X ∧ X < ((end_ p.walls.rr p.nr : Nat) : Int)) ∨ (p.walls.r0 = true ∧ X = 0)) := by
    rw [end_lt _ (by omega) (by omega), end_lt _ (by omega) (by omega)]
    unfold begin_
    cases h0 : p.walls.r0 <;> cases h1 : p.walls.z0 <;> cases h2 : p.walls.rr <;> cases h3 : p.walls.zz <;>
      simp only [h2, Bool.false_eq_true, if_true, if_false, true_and, false_and, forall_const, reduceCtorEq, IsEmpty.forall_iff, or_false] at * <;>
      omega
  have lw := (g2 X Y lg).1
  have gw := (s3 X Y lg).1
  rw [if_pos cond] at lw gw
  have agree : ∀ c, isE c ∨ isH c → u 1 c X Y = m1 c X Y := fun c hc => far1 c X Y hc lg (far Y)
  have hpp : isE Comp.hp ∨ isH Comp.hp := Or.inr (Or.inr (Or.inl rfl))
  have cutY : ∀ c, cut p procs k (setSources (src 1) (u 1)) c X Y = setSources (src 1) (u 1) c X Y := by
    intro c
    unfold cut
    rw [if_neg (fun q => q.2 ⟨by omega, by omega⟩)]
  have cut1 : cut p procs k (setSources (src 1) (u 1)) .hp X (Y - 1) = 0 := by
    unfold cut
    rw [if_pos ⟨rfl, fun q => by omega⟩]
  rw [cE, q2 .er X Y nH, gl, lw, em2, t2 .er X Y nH, gw]
  unfold newE xR
  rw [cutY, cutY, cutY, cutY, cutY, cut1, keepS _ _ _ _ (Or.inl her), keepS _ _ _ _ (Or.inl her), keepS _ _ _ _ hpp, keepS _ _ _ _ hpp,
    keepS _ _ _ _ hpp, agree .er (Or.inl her), agree .hp hpp]
  have s1 : ∀ c (m : Mem K), c.isSource = true → setSources (src 1) m c X Y = src 1 c X Y := by
    intro c m hc
    unfold setSources
    rw [if_pos hc]
  rw [s1 .eps _ rfl, s1 .sig _ rfl, s1 .jr _ rfl, s1 .eps _ rfl, s1 .sig _ rfl, s1 .jr _ rfl]
  ring

/-! ## Instances -/

/-- The local view of the sources. -/
def exLocMpi (p : Par K) (procs domR domZ : Nat) (src : Nat → Comp → Int → Int → K) (t k i j : Nat) (c : Comp) (x y : Int) : K :=
  src t c (rowOf p domR i x) (colOf p procs domZ k j y)

theorem exSlabs : Slabs exArea 2 2 1 :=
  ⟨by decide, by decide, by decide, by decide, by decide, by decide, by decide, by decide, by decide, by decide, by decide, by decide, by decide⟩

example : Slabs { exArea with nz := 12 } 3 1 2 :=
  ⟨by decide, by decide, by decide, by decide, by decide, by decide, by decide, by decide, by decide, by decide, by decide, by decide, by decide⟩

/-- Two processes, two domains each: after two steps the fields are not those of the undivided run. -/
theorem C92_ex_fails : ∃ M m, MpiRun (mpiPar exArea 2 2 1) 2 2 1 2 (exLocMpi exArea 2 2 1 exSrc) 2 M ∧ wholeRun exArea exSrc 2 = .ok m ∧
    M 1 0 0 .er 1 0 ≠ m .er 1 2 := by
  have hs : ∀ t, SameSourcesMpi exArea 2 2 1 (exLocMpi exArea 2 2 1 exSrc t) (exSrc t) := fun _ _ _ _ _ _ _ _ _ => rfl
  obtain ⟨M, hM⟩ := C92_exists exSlabs (cap := 2) le_rfl _ exSrc hs 2
  obtain ⟨m1, m2, e1, e2, h⟩ := C92_border_fails exSlabs hs hM
  obtain ⟨m, em, _, hp⟩ := ex_moves
  have : m = m1 := Res.ok.inj (em.symm.trans e1)
  subst this
  refine ⟨M, m2, hM, e2, ?_⟩
  have := h 1 0 1 (by decide) ⟨by decide, by decide, by decide, by decide, by decide⟩ (fun _ => by decide)
  rw [show rowOf exArea 2 0 1 = 1 from by decide, show ((1 : Nat) : Int) * slabLen exArea 2 = 2 from by decide,
    show (2 : Int) - 1 = 1 from rfl, hp] at this
  rw [this]
  norm_num [koefH, exSrc, exArea]

end Yee
end Pico
