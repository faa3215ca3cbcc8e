import Verif.Lemmas.PicMpi
import Verif.Props.Pic

/-!
# C101 — whole runs of several processes

`StepMpi E procs cap S S'` is one pass of the main loop of all processes, with some schedule of the messages and room for `cap`
messages between each two processes; undefined behaviour, loops without end and deadlocks lead nowhere.  `RunMpi` are several
passes.
-/

set_option linter.unusedSimpArgs false
set_option linter.unusedVariables false
set_option linter.unusedSectionVars false

namespace Pico
namespace Pic

open SMB Yee

/-- C101, one step: from a sane state in which no particle will arrive exactly at a border of its domain, every step of all
processes, whatever the schedule, leads to a sane state in which every species has the same particles as before, and if the
messages of one exchange fit in the buffers there is a step.  Full statement (false, see `C97_border_fails` and
`C101_buffer_fails`): without the conditions on borders and buffers. -/
theorem C101_step_partial {E : Env} {procs : Nat} (h : Shared E procs) (hk : Pusher.Relativistic E.kind) (hz : Scheme E.dist)
    {ids : List Nat} (nd : ids.Nodup) {S : StateMpi} (A : AliveMpi E procs ids S) {cap : Nat} (B : NoBorderMpi E procs cap S) :
    (∀ T, StepMpi E procs cap S T → AliveMpi E procs ids T ∧
      ∀ id ∈ ids, (tagsOf E (joined E procs T.D) id).Perm (tagsOf E (joined E procs S.D) id)) ∧
    (E.domR ≤ cap → amount E procs ids S < cap → ∃ T, StepMpi E procs cap S T) :=
  step_mpi h hk (scheme_sound hz) nd A B

theorem amount_eq {E : Env} {procs : Nat} {ids : List Nat} {S T : StateMpi}
    (h : ∀ id ∈ ids, (tagsOf E (joined E procs T.D) id).Perm (tagsOf E (joined E procs S.D) id)) : amount E procs ids T = amount E procs ids S :=
  (List.Perm.flatMap_left _ fun id hid => h id hid).length_eq

/-- C101, any number of steps. -/
theorem C101_run_partial {E : Env} {procs : Nat} (h : Shared E procs) (hk : Pusher.Relativistic E.kind) (hz : Scheme E.dist)
    {ids : List Nat} (nd : ids.Nodup) {S : StateMpi} (A : AliveMpi E procs ids S) {cap : Nat} (n : Nat)
    (B : ∀ m T, m < n → RunMpi E procs cap S m T → NoBorderMpi E procs cap T) :
    (∀ T, RunMpi E procs cap S n T → AliveMpi E procs ids T ∧
      ∀ id ∈ ids, (tagsOf E (joined E procs T.D) id).Perm (tagsOf E (joined E procs S.D) id)) ∧
    (E.domR ≤ cap → amount E procs ids S < cap → ∃ T, RunMpi E procs cap S n T) := by
  induction n with
  | zero =>
    refine ⟨fun T r => ?_, fun _ _ => ⟨S, .start⟩⟩
    cases r
    exact ⟨A, fun _ _ => .refl _⟩
  | succ n ih =>
    obtain ⟨i1, i2⟩ := ih fun m T hm r => B m T (by omega) r
    refine ⟨fun T r => ?_, fun c1 c2 => ?_⟩
    · cases r with
      | step ra rb =>
        obtain ⟨A1, p1⟩ := i1 _ ra
        obtain ⟨A2, p2⟩ := (C101_step_partial h hk hz nd A1 (B n _ (by omega) ra)).1 T rb
        exact ⟨A2, fun id hid => (p2 id hid).trans (p1 id hid)⟩
    · obtain ⟨T1, r1⟩ := i2 c1 c2
      obtain ⟨A1, p1⟩ := i1 _ r1
      obtain ⟨T, s⟩ := (C101_step_partial h hk hz nd A1 (B n _ (by omega) r1)).2 c1 (by rw [amount_eq p1]; exact c2)
      exact ⟨T, .step r1 s⟩

/-- C101, the schedule: after any number of steps the particles, lists, fields and currents of all processes do not depend on
the order of the messages or on the size of the buffers. -/
theorem C101_schedule_partial {E : Env} {procs : Nat} (h : Shared E procs) (hk : Pusher.Relativistic E.kind) (hz : Scheme E.dist)
    {ids : List Nat} (nd : ids.Nodup) {S : StateMpi} (A : AliveMpi E procs ids S) {cap cap' : Nat} (n : Nat)
    (B : ∀ m T, m < n → RunMpi E procs cap S m T → NoBorderMpi E procs cap T) {T T' : StateMpi} (r : RunMpi E procs cap S n T)
    (r' : RunMpi E procs cap' S n T') : T.heap = T'.heap ∧ ∀ k, k < procs → T.D k = T'.D k ∧ T.M k = T'.M k := by
  induction n generalizing T T' with
  | zero =>
    cases r
    cases r'
    exact ⟨rfl, fun _ _ => ⟨rfl, rfl⟩⟩
  | succ n ih =>
    cases r with
    | step ra rb =>
      cases r' with
      | step ra' rb' =>
        have A1 := ((C101_run_partial h hk hz nd A n fun m T hm r => B m T (by omega) r).1 _ ra).1
        exact step_det h hk A1 (B n _ (by omega) ra) (ih (fun m T hm r => B m T (by omega) r) ra ra') rb rb'

/-- C101 fails with small buffers: if there is less room between two processes than the columns of one field exchange need
(in particular with rendezvous sends), no step ends, whatever the state and the schedule. -/
theorem C101_buffer_fails {E : Env} {procs cap : Nat} (hp : 2 ≤ procs) (hc : cap < E.domR) (S T : StateMpi) : ¬ StepMpi E procs cap S T := by
  rintro ⟨M1, ⟨N1, N2, N3, _, ⟨pl, mi, a1, s, r, f, _⟩, _⟩, _⟩
  have U : Mpi.Uniform procs E.domR pl mi := fun k hk => ⟨packAll_len _ _ _ _ _ _ (a1 k hk).1, packAll_len _ _ _ _ _ _ (a1 k hk).2⟩
  exact Mpi.C12_deadlock U hp hc r f

/-! ### Non-vacuity -/

/-- One particle in domain `(0, 0)` of process `0`; no fields. -/
noncomputable def exStateMpi (a : Part ℝ) : StateMpi where
  M := fun _ _ _ => exMedium
  heap := fun _ => a
  D := fun k i j => [⟨7, if k = 0 ∧ i = 0 ∧ j = 0 then [⟨0, 0, 0⟩] else []⟩]

theorem ex_shared : Shared (exEnv 2 2 0) 2 :=
  ⟨exEnv_chamber ex_div2 0, ⟨by decide, by decide, by decide, by decide,
    ⟨by decide, by decide, by decide, by decide, by decide, by decide, by decide, by decide, by decide⟩⟩, by decide⟩

theorem exMpi_listed {k i j : Nat} {a : Part ℝ} {sp : Sp} (hsp : sp ∈ (exStateMpi a).D k i j) {o : Prt} (ho : o ∈ sp.parts) :
    k = 0 ∧ i = 0 ∧ j = 0 ∧ sp.id = 7 := by
  obtain rfl := List.mem_singleton.mp hsp
  have ho : o ∈ (if k = 0 ∧ i = 0 ∧ j = 0 then [(⟨0, 0, 0⟩ : Prt)] else []) := ho
  split_ifs at ho with c
  · exact ⟨c.1, c.2.1, c.2.2, rfl⟩
  · simp at ho

theorem exMpi_alive : AliveMpi (exEnv 2 2 0) 2 [7] (exStateMpi (exPart (19/10) (19/10) (3/10) (4/10) 1 1)) where
  species := fun _ _ _ _ => rfl
  once := by
    have : [7].flatMap (tagsOf (exEnv 2 2 0) (joined (exEnv 2 2 0) 2 (exStateMpi (exPart (19/10) (19/10) (3/10) (4/10) 1 1)).D)) = [0] := by rfl
    rw [this]
    exact List.nodup_singleton 0
  place := by
    intro i J _ hJ sp hsp o ho
    obtain ⟨c1, rfl, c2, _⟩ := exMpi_listed hsp ho
    have e : (exEnv 2 2 0).cols 2 = 1 := rfl
    rw [e, Nat.div_one] at c1
    subst c1
    exact ex_cross
  number := by
    intro i J _ _ sp hsp o ho
    obtain ⟨_, _, _, e⟩ := exMpi_listed hsp ho
    exact e.symm
  fields := ⟨exMedium, fun k i j x y c hc _ => by
    have ne : c ≠ .eps := fun k => by rw [k] at hc; exact (nomatch hc)
    unfold cut
    split
    · exact if_neg ne
    · rfl⟩

/-- The hypotheses of C101 for two processes with two domains each: a particle that crosses the corner between four domains and
the border between the processes. -/
example : Shared (exEnv 2 2 0) 2 ∧ AliveMpi (exEnv 2 2 0) 2 [7] (exStateMpi (exPart (19/10) (19/10) (3/10) (4/10) 1 1)) ∧
    NoBorderMpi (exEnv 2 2 0) 2 2 (exStateMpi (exPart (19/10) (19/10) (3/10) (4/10) 1 1)) ∧
    amount (exEnv 2 2 0) 2 [7] (exStateMpi (exPart (19/10) (19/10) (3/10) (4/10) 1 1)) < 2 := by
  refine ⟨ex_shared, exMpi_alive, ?_, by decide⟩
  intro M1 _ k i j hk hi hj sp hsp o ho junk v ev
  obtain ⟨rfl, rfl, rfl, _⟩ := exMpi_listed hsp ho
  rw [geom_mpi ex_shared] at ev
  have e : 0 * (exEnv 2 2 0).cols 2 + 0 = 0 := rfl
  rw [e] at ev ⊢
  have := neutral (exEnv_chamber ex_div2 0) rfl hi (show 0 < 2 by decide) ex_cross (id := sp.id) rfl (M1 0 0 0) junk
  obtain rfl := Res.ok.inj (ev.symm.trans this)
  unfold Clear
  rw [low_zero, low_zero]
  constructor
  · unfold landR
    rw [Nat.cast_zero, zero_mul]
    refine (Real.sqrt_pos.mpr ?_).ne'
    norm_num [exEnv, exPart, exStateMpi, vel]
  · norm_num [landZ, exEnv, exPart, exStateMpi, vel]

end Pic
end Pico
