import Verif.Props.CurrentStep

/-! Both deposition schemes are defined for all particles that are in their places; so is the current step of all domains. -/

set_option linter.unusedSimpArgs false
set_option linter.unusedVariables false
set_option linter.unusedSectionVars false

namespace Pico
namespace Yee

open SMB VB

variable {K : Type _} [Field K] [LinearOrder K] [IsStrictOrderedRing K] [FloorRing K]

/-- The deposition of particles in their places ends well and changes nothing but the currents. -/
def Sound (dist : Ctx K → List (VB.Part K) → Mem K → Res (Mem K)) : Prop :=
  ∀ X : Ctx K, X.Good → ∀ qs : List (VB.Part K), (∀ q ∈ qs, q.Bound X.g ∧ q.NearCell X.g) → ∀ m : Mem K,
    ∃ r, dist X qs (resetCurrent X.g m) = .ok r ∧ ∀ c, ¬ isJ c → ∀ x y, r c x y = m c x y

theorem zz_sound : Sound (K := K) ZigZag.currentDistribution := by
  intro X hX qs hq m
  obtain ⟨r, e, _, k⟩ := zz_run X hX qs hq m
  exact ⟨r, e, k⟩

/-- One particle of the second scheme, also if it moves along the axis only. -/
theorem rz_defined (X : Ctx K) (hX : X.Good) (q : VB.Part K) (hb : q.Bound X.g) (hn : q.NearCell X.g) (m : Mem K) :
    ∃ r, rzParticle X q m = .ok r := by
  by_cases ha : X.mnzl ≤ |q.r - q.rOld| ∨ |q.z - q.zOld| < X.mnzl
  · obtain ⟨ops, e, inc⟩ := rzOps_inc X hX q hb hn ha
    obtain ⟨r, e1, _⟩ := runOps_inc X.g ops inc m
    exact ⟨r, by unfold rzParticle; rw [e, Res.ok_bind]; exact e1⟩
  · obtain ⟨a1, a2⟩ := not_or.mp ha
    exact ⟨_, (C19_axial_erases X hX q hb hn (not_le.mp a1) (not_lt.mp a2) m).choose_spec.1⟩

theorem rz_loop_defined (X : Ctx K) (hX : X.Good) (qs : List (VB.Part K)) (hq : ∀ q ∈ qs, q.Bound X.g ∧ q.NearCell X.g) (m : Mem K) :
    ∃ r, loop (rzParticle X) qs m = .ok r := by
  induction qs generalizing m with
  | nil => exact ⟨m, rfl⟩
  | cons q l ih =>
    obtain ⟨m1, e1⟩ := rz_defined X hX q (hq q List.mem_cons_self).1 (hq q List.mem_cons_self).2 m
    obtain ⟨m2, e2⟩ := ih (fun s hs => hq s (List.mem_cons_of_mem _ hs)) m1
    exact ⟨m2, by rw [loop_cons, e1, Res.ok_bind, e2]⟩

theorem vb_sound : Sound (K := K) VB.currentDistribution := by
  intro X hX qs hq m
  obtain ⟨m1, e1, v1⟩ := loop_azimuthal X hX qs (fun p hp => (hq p hp).1) (overlayClear X.g (resetCurrent X.g m))
  obtain ⟨m2, e2⟩ := rz_loop_defined X hX qs hq (overlayClear X.g m1)
  refine ⟨m2, ?_, ?_⟩
  · unfold VB.currentDistribution azimuthal
    rw [e1, Res.ok_bind]
    exact e2
  · intro c hc x y
    have n1 : c ≠ .jr := fun h => hc (Or.inl h)
    have n2 : c ≠ .jp := fun h => hc (Or.inr (Or.inl h))
    have n3 : c ≠ .jz := fun h => hc (Or.inr (Or.inr h))
    rw [rz_other X c n1 n3 qs _ _ e2]
    unfold overlayClear
    rw [if_neg (fun h => hc h.1), v1, List.map_congr_left (fun p _ => azimuthalOps_tot X p c n2 x y)]
    unfold overlayClear resetCurrent
    rw [if_neg (fun h => hc h.1), if_neg (fun h => hc h.1)]
    simp

/-- The current step of all domains ends well and changes nothing but the currents. -/
theorem solve_sound {dist : Ctx K → List (VB.Part K) → Mem K → Res (Mem K)} (hs : Sound dist) (p : Par K) {domR domZ : Nat}
    (hd : Divided p domR domZ) (e : Consts K) (hx : (ctxOf p 0 e).Good) (ps : Nat → Nat → List (VB.Part K))
    (hp : Housed p domR domZ e ps) (M : Solvers K) :
    ∃ M', solveCurrent dist p domR domZ e ps M = .ok M' ∧
      ∀ i j c x y, i < domR → j < domZ → ¬ isJ c → M' i j c x y = M i j c x y := by
  have hr : ∀ i j, ∃ r, i < domR → j < domZ →
      dist (domCtx p domR domZ e i j) (ps i j) (resetCurrent (domCtx p domR domZ e i j).g (M i j)) = .ok r ∧
      ∀ c, ¬ isJ c → ∀ x y, r c x y = M i j c x y := by
    intro i j
    by_cases h : i < domR ∧ j < domZ
    · obtain ⟨r, a, b⟩ := hs (domCtx p domR domZ e i j) (dom_good hd e hx h.1 h.2) (ps i j) (hp i j h.1 h.2) (M i j)
      exact ⟨r, fun _ _ => ⟨a, b⟩⟩
    · exact ⟨M i j, fun h1 h2 => absurd ⟨h1, h2⟩ h⟩
  choose r hr using hr
  obtain ⟨M1, e1, v1⟩ := each_ok domR domZ
    (fun i j m => dist (domCtx p domR domZ e i j) (ps i j) (resetCurrent (domCtx p domR domZ e i j).g m)) r M
    (fun i j hi hj => (hr i j hi hj).1)
  obtain ⟨M2, e2, f2, _⟩ := overlays_gather p hd
    (fun c i j X Y => if (winPar p domR domZ i j).inside (X - low p.nr domR i) (Y - low p.nz domZ j) then
      M1 i j c (X - low p.nr domR i) (Y - low p.nz domZ j) else 0) [.jr, .jp, .jz] M1 (by decide)
    (fun c hc i j x y hi hj hin => by
      rw [add_sub_cancel_left, add_sub_cancel_left, if_pos hin])
    (fun c hc i j x y hi hj hin => by
      rw [add_sub_cancel_left, add_sub_cancel_left, if_neg hin])
  refine ⟨M2, ?_, ?_⟩
  · unfold solveCurrent
    rw [e1, Res.ok_bind, domPar_eq hd]
    exact e2
  · intro i j c x y hi hj hc
    rw [f2 i j c x y (by simpa [isJ] using hc), v1 i j hi hj, (hr i j hi hj).2 c hc]

end Yee
end Pico
