import Verif.Model.External
import Verif.Lemmas.Yee
import Mathlib.Algebra.Order.Ring.Rat

/-! Property C24: the configured external field is the one that is applied. -/

set_option linter.unusedSimpArgs false
set_option linter.unusedVariables false
set_option linter.unusedSectionVars false

namespace Pico
namespace Ext

open Yee

variable {K : Type _} [Field K]

/-- The cells of the domain that are not wall cells. -/
def Inner (p : Par K) (i k : Int) : Prop :=
  (if p.walls.r0 then 1 else 0) ≤ i ∧ i < (p.nr : Int) - (if p.walls.rr then 1 else 0) ∧
  (if p.walls.z0 then 1 else 0) ≤ k ∧ k < (p.nz : Int) - (if p.walls.zz then 1 else 0)

instance (p : Par K) (i k : Int) : Decidable (Inner p i k) := by unfold Inner; infer_instance

/-- A homogeneous axial magnetic field of the given strength and no electric field. -/
structure AxialH (p : Par K) (a : K) (m : Mem K) : Prop where
  z_in : ∀ i k, Inner p i k → m .fz i k = a
  z_out : ∀ i k, ¬ Inner p i k → m .fz i k = 0
  rest : ∀ c, c ≠ .fz → ∀ i k, m c i k = 0

theorem setAll_ok {p : Par K} {i k : Nat} (h : p.inside i k) (vs : List (Comp × K)) (m : Mem K) :
    ∃ m', setAll p vs i k m = .ok m' ∧
      (∀ c x y, (x = (i : Int) ∧ y = (k : Int) → ∀ v ∈ vs, v.1 ≠ c) → m' c x y = m c x y) ∧
      (∀ c v, (∃ u ∈ vs, u.1 = c) → (∀ u ∈ vs, u.1 = c → u.2 = v) → m' c i k = v) := by
  induction vs generalizing m with
  | nil => exact ⟨m, rfl, fun _ _ _ _ => rfl, fun c v ⟨u, hu, _⟩ => absurd hu (by simp)⟩
  | cons u vs ih =>
    obtain ⟨m', e, a, b⟩ := ih (put m u.1 i k u.2)
    refine ⟨m', ?_, ?_, ?_⟩
    · unfold setAll at e ⊢
      rw [loop_cons, upd_ok h, Res.ok_bind]
      exact e
    · intro c x y hc
      rw [a c x y (fun hx v hv => hc hx v (List.mem_cons_of_mem _ hv))]
      unfold put
      rw [if_neg]
      rintro ⟨h1, h2, h3⟩
      exact hc ⟨h2, h3⟩ u List.mem_cons_self h1.symm
    · intro c v ⟨w, hw, hwc⟩ huv
      by_cases ex : ∃ u ∈ vs, u.1 = c
      · exact b c v ex (fun u hu => huv u (List.mem_cons_of_mem _ hu))
      · rw [a c i k (fun _ v hv hc => ex ⟨v, hv, hc⟩)]
        rcases List.mem_cons.mp hw with rfl | hw
        · rw [← hwc, put_same]
          exact huv w List.mem_cons_self hwc
        · exact absurd ⟨w, hw, hwc⟩ ex

/-- A loop setting some components of a list of cells. -/
theorem loop_set {ι : Type _} {p : Par K} (body : ι → Mem K → Res (Mem K)) (fi fk : ι → Nat) (vs : List (Comp × K))
    (hb : ∀ a m, body a m = setAll p vs (fi a) (fk a) m) (l : List ι) (hin : ∀ a ∈ l, p.inside (fi a) (fk a)) (m : Mem K) :
    ∃ m', loop body l m = .ok m' ∧
      (∀ c x y, ((∃ a ∈ l, x = (fi a : Int) ∧ y = (fk a : Int)) → ∀ v ∈ vs, v.1 ≠ c) → m' c x y = m c x y) ∧
      (∀ c v, (∃ u ∈ vs, u.1 = c) → (∀ u ∈ vs, u.1 = c → u.2 = v) → ∀ a ∈ l, m' c (fi a) (fk a) = v) := by
  induction l generalizing m with
  | nil => exact ⟨m, rfl, fun _ _ _ _ => rfl, fun _ _ _ _ a ha => absurd ha (by simp)⟩
  | cons a l ih =>
    obtain ⟨m1, e1, x1, y1⟩ := setAll_ok (hin a List.mem_cons_self) vs m
    obtain ⟨m2, e2, x2, y2⟩ := ih (fun b hb => hin b (List.mem_cons_of_mem _ hb)) m1
    refine ⟨m2, by rw [loop_cons, hb, e1, Res.ok_bind, e2], ?_, ?_⟩
    · intro c x y hc
      rw [x2 c x y (fun ⟨b, hb, hx⟩ => hc ⟨b, List.mem_cons_of_mem _ hb, hx⟩),
        x1 c x y (fun hx => hc ⟨a, List.mem_cons_self, hx⟩)]
    · intro c v ex huv b hb'
      by_cases inl : ∃ d ∈ l, (fi b : Int) = fi d ∧ (fk b : Int) = fk d
      · obtain ⟨d, hd, h1, h2⟩ := inl
        rw [h1, h2]
        exact y2 c v ex huv d hd
      · have : b = a := by
          rcases List.mem_cons.mp hb' with h | h
          · exact h
          · exact absurd ⟨b, h, rfl, rfl⟩ inl
        subst this
        rw [x2 c _ _ (fun h => absurd h inl)]
        exact y1 c v ex huv

theorem inner_iff (p : Par K) (hr : 1 ≤ p.nr) (hr' : p.nr < 2 ^ 32) (hz : 1 ≤ p.nz) (hz' : p.nz < 2 ^ 32) (i k : Nat) :
    (i, k) ∈ idx2 (begin_ p.walls.r0) (end_ p.walls.rr p.nr) (begin_ p.walls.z0) (end_ p.walls.zz p.nz) ↔ Inner p i k := by
  have e1 : end_ p.walls.rr p.nr = p.nr - (if p.walls.rr then 1 else 0) := by
    unfold end_
    split
    · have : p.nr + (2 ^ 32 - 1) = (p.nr - 1) + 2 ^ 32 := by omega
      rw [this, Nat.add_mod_right, Nat.mod_eq_of_lt (by omega)]
    · rfl
  have e2 : end_ p.walls.zz p.nz = p.nz - (if p.walls.zz then 1 else 0) := by
    unfold end_
    split
    · have : p.nz + (2 ^ 32 - 1) = (p.nz - 1) + 2 ^ 32 := by omega
      rw [this, Nat.add_mod_right, Nat.mod_eq_of_lt (by omega)]
    · rfl
  rw [mem_idx2, e1, e2]
  unfold Inner begin_
  dsimp only
  split_ifs <;> omega

theorem homZ_ok (p : Par K) (hr : 1 ≤ p.nr) (hr' : p.nr < 2 ^ 32) (hz : 1 ≤ p.nz) (hz' : p.nz < 2 ^ 32) {cr cp cz : Comp}
    (h1 : cr ≠ cz) (h2 : cp ≠ cz) (a : K) (m : Mem K)
    (m0 : ∀ c, c = cr ∨ c = cp ∨ c = cz → ∀ i k, m c i k = 0) :
    ∃ m', homZ p cr cp cz a m = .ok m' ∧ (∀ i k, Inner p i k → m' cz i k = a) ∧
      (∀ i k, ¬ Inner p i k → m' cz i k = 0) ∧ (∀ c, c ≠ cz → ∀ i k, m' c i k = m c i k) := by
  have el : end_ p.walls.rr p.nr ≤ p.nr := end_le _ hr hr'
  have el2 : end_ p.walls.zz p.nz ≤ p.nz := end_le _ hz hz'
  -- a loop that writes zeros into zeros changes nothing
  have same : ∀ {ι : Type} (body : ι → Mem K → Res (Mem K)) (fi fk : ι → Nat) (vs : List (Comp × K))
      (hb : ∀ a m, body a m = setAll p vs (fi a) (fk a) m) (l : List ι) (hin : ∀ a ∈ l, p.inside (fi a) (fk a))
      (hv : ∀ v ∈ vs, (v.1 = cr ∨ v.1 = cp ∨ v.1 = cz) ∧ v.2 = 0), loop body l m = .ok m := by
    intro ι body fi fk vs hb l hin hv
    obtain ⟨m', e, x, y⟩ := loop_set body fi fk vs hb l hin m
    have : m' = m := by
      funext c i k
      by_cases ex : ∃ u ∈ vs, u.1 = c
      · by_cases inl : ∃ a ∈ l, i = (fi a : Int) ∧ k = (fk a : Int)
        · obtain ⟨b, hb, rfl, rfl⟩ := inl
          rw [y c 0 ex (fun u hu _ => (hv u hu).2) b hb]
          obtain ⟨u, hu, rfl⟩ := ex
          exact (m0 _ (hv u hu).1 _ _).symm
        · exact x c i k (fun h => absurd h inl)
      · exact x c i k (fun _ v hv hc => ex ⟨v, hv, hc⟩)
    rw [e, this]
  have s1 : (if p.walls.r0 then loop (fun k m => setAll p [(cr, 0), (cz, 0)] 0 k m)
      (List.range' (begin_ p.walls.z0) (end_ p.walls.zz p.nz - begin_ p.walls.z0)) m else .ok m) = .ok m := by
    split
    · refine same _ (fun _ => 0) id [(cr, 0), (cz, 0)] (fun _ _ => rfl) _ ?_ ?_
      · intro k hk
        have := (List.mem_range'_1.mp hk)
        unfold Par.inside
        simp only [id]
        omega
      · intro v hv
        simp at hv
        rcases hv with rfl | rfl <;> simp
    · rfl
  have s2 : (if p.walls.z0 then loop (fun i m => setAll p [(cz, 0)] i 0 m)
      (List.range' (begin_ p.walls.r0) (end_ p.walls.rr p.nr - begin_ p.walls.r0)) m else .ok m) = .ok m := by
    split
    · refine same _ id (fun _ => 0) [(cz, 0)] (fun _ _ => rfl) _ ?_ ?_
      · intro k hk
        have := (List.mem_range'_1.mp hk)
        unfold Par.inside
        simp only [id]
        omega
      · intro v hv
        simp at hv
        rcases hv with rfl
        simp
    · rfl
  obtain ⟨m', e, x, y⟩ := loop_set (p := p) (fun (q : Nat × Nat) m => setAll p [(cr, 0), (cp, 0), (cz, a)] q.1 q.2 m)
    Prod.fst Prod.snd [(cr, 0), (cp, 0), (cz, a)] (fun _ _ => rfl)
    (idx2 (begin_ p.walls.r0) (end_ p.walls.rr p.nr) (begin_ p.walls.z0) (end_ p.walls.zz p.nz))
    (by
      rintro ⟨i, k⟩ h
      have := mem_idx2.mp h
      unfold Par.inside
      dsimp only at this ⊢
      omega) m
  have mem_of : ∀ {i k : Int}, Inner p i k → ∃ q ∈ idx2 (begin_ p.walls.r0) (end_ p.walls.rr p.nr) (begin_ p.walls.z0)
      (end_ p.walls.zz p.nz), i = (q.1 : Int) ∧ k = (q.2 : Int) := by
    intro i k h
    have hh := h
    unfold Inner at h
    have i0 : 0 ≤ i := by have := h.1; split_ifs at this <;> omega
    have k0 : 0 ≤ k := by have := h.2.2.1; split_ifs at this <;> omega
    obtain ⟨i, rfl⟩ := Int.eq_ofNat_of_zero_le i0
    obtain ⟨k, rfl⟩ := Int.eq_ofNat_of_zero_le k0
    exact ⟨(i, k), (inner_iff p hr hr' hz hz' i k).mpr hh, rfl, rfl⟩
  refine ⟨m', ?_, ?_, ?_, ?_⟩
  · unfold homZ
    dsimp only
    rw [s1, Res.ok_bind, s2, Res.ok_bind, e]
  · intro i k h
    obtain ⟨q, hq, rfl, rfl⟩ := mem_of h
    refine y cz a ⟨(cz, a), by simp, rfl⟩ ?_ q hq
    intro u hu huc
    simp at hu
    rcases hu with rfl | rfl | rfl
    · exact absurd huc h1
    · exact absurd huc h2
    · rfl
  · intro i k h
    rw [x cz i k ?_, m0 cz (by simp)]
    rintro ⟨q, hq, rfl, rfl⟩
    exact absurd ((inner_iff p hr hr' hz hz' q.1 q.2).mp hq) h
  · intro c hc i k
    by_cases ex : ∃ q ∈ idx2 (begin_ p.walls.r0) (end_ p.walls.rr p.nr) (begin_ p.walls.z0) (end_ p.walls.zz p.nz),
        i = (q.1 : Int) ∧ k = (q.2 : Int)
    · by_cases hc' : c = cr ∨ c = cp
      · obtain ⟨q, hq, rfl, rfl⟩ := ex
        rw [m0 c (by tauto)]
        refine y c 0 ?_ ?_ q hq
        · rcases hc' with rfl | rfl
          · exact ⟨_, List.mem_cons_self, rfl⟩
          · exact ⟨(c, 0), by simp, rfl⟩
        · intro u hu huc
          simp at hu
          rcases hu with rfl | rfl | rfl
          · rfl
          · rfl
          · exact absurd huc.symm hc
      · refine x c i k (fun _ v hv => ?_)
        simp at hv
        rcases hv with rfl | rfl | rfl
        · exact fun h => hc' (Or.inl h.symm)
        · exact fun h => hc' (Or.inr h.symm)
        · exact fun h => hc h.symm
    · exact x c i k (fun h => absurd h ex)

theorem eProfile_le (s : String) : eProfile s = .ok 0 ∨ eProfile s = .ok 1 := by
  unfold eProfile
  by_cases h : s = "none"
  · right; subst h; rfl
  · left; rw [if_pos h]

/-- What the electric part does: nothing, for every name. -/
theorem apply_e (p : Par K) (e m : Nat) (ep mp : List K) (he : e = 0 ∨ e = 1) (s : Mem K) :
    apply p ⟨e, m, ep, mp⟩ s = apply p ⟨0, m, [], mp⟩ s := by
  rcases he with rfl | rfl <;> rfl

theorem loop_id {ι σ : Type _} (body : ι → σ → Res σ) (l : List ι) (s : σ) (h : ∀ a, body a s = .ok s) : loop body l s = .ok s := by
  induction l with
  | nil => rfl
  | cons a l ih => rw [loop_cons, h, Res.ok_bind, ih]

theorem run_eq (p : Par K) (el mag : String) (ep mp : List K) (n : Nat) :
    run p el mag ep mp n = mProfile mag >>= fun m => loop (fun _ s => apply p ⟨0, m, [], mp⟩ s) (List.range n) mem0 := by
  unfold run construct
  rcases eProfile_le el with h | h <;> rw [h, Res.ok_bind] <;>
  · cases hm : mProfile mag with
    | ok m => rfl
    | fatal => rfl
    | ub => rfl

/-! ### The property -/

/-- C24, the part that holds: a magnetic profile `const_z` gives the configured homogeneous axial field in all
cells that are not wall cells and nothing else; whatever the electric profile is called (see below). -/
theorem C24_magnetic_const_z_partial (p : Par K) (hr : 1 ≤ p.nr) (hr' : p.nr < 2 ^ 32) (hz : 1 ≤ p.nz) (hz' : p.nz < 2 ^ 32)
    (el : String) (ePar : List K) (a : K) (mPar : List K) (n : Nat) :
    ∃ m, run p el "const_z" ePar (a :: mPar) (n + 1) = .ok m ∧ AxialH p a m := by
  have prof : mProfile "const_z" = .ok 3 := by decide
  have step : ∀ s : Mem K, (∀ c, c ≠ .fz → ∀ i k, s c i k = 0) → (∀ i k, ¬ p.inside i k → s .fz i k = 0) →
      ∃ m, apply p ⟨0, 3, [], a :: mPar⟩ s = .ok m ∧ AxialH p a m := by
    intro s hs hs2
    have z : ∀ c i k, clear p [.fr, .fp, .fz] (clear p [.er, .ep, .ez] s) c i k = 0 := by
      intro c i k
      unfold clear
      by_cases hc : c = .fz
      · subst hc
        by_cases hi : p.inside i k
        · rw [if_pos ⟨by simp, hi⟩]
        · rw [if_neg (fun h => hi h.2), if_neg (fun h => hi h.2)]
          exact hs2 i k hi
      · split
        · rfl
        · split
          · rfl
          · exact hs c hc i k
    obtain ⟨m', e, h1, h2, h3⟩ := homZ_ok p hr hr' hz hz' (cr := .fr) (cp := .fp) (cz := .fz) (by decide) (by decide) a
      (clear p [.fr, .fp, .fz] (clear p [.er, .ep, .ez] s)) (fun c _ i k => z c i k)
    exact ⟨m', e, h1, h2, fun c hc i k => by rw [h3 c hc, z]⟩
  rw [run_eq, prof, Res.ok_bind]
  have inv : ∀ l : List Nat, ∀ s : Mem K, (∀ c, c ≠ .fz → ∀ i k, s c i k = 0) → (∀ i k, ¬ p.inside i k → s .fz i k = 0) →
      l ≠ [] → ∃ m, loop (fun _ s => apply p ⟨0, 3, [], a :: mPar⟩ s) l s = .ok m ∧ AxialH p a m := by
    intro l
    induction l with
    | nil => intro s _ _ h; exact absurd rfl h
    | cons b l ih =>
      intro s h1 h2 _
      obtain ⟨m, e, ax⟩ := step s h1 h2
      by_cases hl : l = []
      · subst hl
        exact ⟨m, by rw [loop_cons, e]; rfl, ax⟩
      · obtain ⟨m', e', ax'⟩ := ih m ax.rest (fun i k h => ax.z_out i k (by
            intro hin
            apply h
            unfold Inner at hin
            unfold Par.inside
            obtain ⟨q1, q2, q3, q4⟩ := hin
            split_ifs at q1 q2 q3 q4 <;> omega)) hl
        exact ⟨m', by rw [loop_cons, e, Res.ok_bind, e'], ax'⟩
  exact inv _ mem0 (fun _ _ _ _ => rfl) (fun _ _ _ => rfl) (by simp [List.range_succ])

/-- C24: the magnetic profile `none` applies nothing. -/
theorem C24_none (p : Par K) (ePar mPar : List K) (n : Nat) :
    run p "none" "none" ePar mPar n = .ok (fun _ _ _ => 0) := by
  rw [run_eq]
  exact loop_id _ _ _ (fun _ => rfl)

/-- C24: an unknown magnetic profile is rejected, a known one is not. -/
theorem C24_magnetic_unknown_rejected (p : Par K) (el mag : String) (ePar mPar : List K) :
    (run p el mag ePar mPar 0 = .fatal ↔
      mag ∉ ["none", "const_r", "const_phi", "const_z", "linerad_r", "linerad_z"]) ∧
    (mag ∉ ["none", "const_r", "const_phi", "const_z", "linerad_r", "linerad_z"] → ∀ n, run p el mag ePar mPar n = .fatal) := by
  have hf : mag ∉ ["none", "const_r", "const_phi", "const_z", "linerad_r", "linerad_z"] → mProfile mag = .fatal := by
    intro h
    simp at h
    unfold mProfile
    simp [h]
  refine ⟨⟨?_, ?_⟩, ?_⟩
  · intro h hk
    rw [run_eq] at h
    simp at hk
    rcases hk with rfl | rfl | rfl | rfl | rfl | rfl <;> exact absurd h nofun
  · intro h; rw [run_eq, hf h]; rfl
  · intro h n; rw [run_eq, hf h]; rfl

/-- C24 fails: the electric field is never applied and its name is never checked: every run is the same as the
one with an electric profile `none`, for every name, known or not, and every amplitude. -/
theorem C24_electric_fails (p : Par K) (el mag : String) (ePar mPar : List K) (n : Nat) :
    run p el mag ePar mPar n = run p "none" mag [] mPar n := by
  rw [run_eq, run_eq p "none"]

/-- C24 fails: the magnetic profiles `const_r`, `const_phi`, `linerad_r`, `linerad_z` are accepted but apply
nothing. -/
theorem C24_magnetic_ignored_fails (p : Par K) (mag : String) (h : mag ∈ ["const_r", "const_phi", "linerad_r", "linerad_z"])
    (el : String) (ePar mPar : List K) (n : Nat) : run p el mag ePar mPar n = .ok (fun _ _ _ => 0) := by
  rw [run_eq]
  simp at h
  rcases h with rfl | rfl | rfl | rfl <;> exact loop_id _ _ _ (fun _ => rfl)

/-- A `const_z` profile without a parameter reads past the end of an empty vector. -/
theorem C24_missing_parameter (p : Par K) (el : String) (ePar : List K) (n : Nat) :
    run p el "const_z" ePar [] (n + 1) = .ub := by
  rw [run_eq, show mProfile "const_z" = .ok 3 by decide, Res.ok_bind]
  obtain ⟨b, l, hl⟩ : ∃ b l, List.range (n + 1) = b :: l := ⟨_, _, List.range_succ_eq_map⟩
  rw [hl, loop_cons]
  rfl

/-! ### Concrete cases -/

def exP : Par ℚ := ⟨1, 1, 1, 1, 0, 5, 7, ⟨true, true, false, true⟩⟩
example := C24_magnetic_const_z_partial exP (by decide) (by decide) (by decide) (by decide) "anything" [] 3 [] 4
example : Inner exP 1 5 ∧ ¬ Inner exP 0 5 ∧ ¬ Inner exP 1 6 ∧ Inner exP 4 1 := by decide
example := C24_electric_fails exP "const_z" "none" [5] [] 10
example := C24_magnetic_ignored_fails exP "const_r" (by simp) "none" [] [5] 10
example := (C24_magnetic_unknown_rejected exP "x" "const" [] [5]).2 (by decide) 3

end Ext
end Pico
