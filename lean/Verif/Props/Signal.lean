import Verif.Model.Signal
import Verif.Lemmas.Base

/-!
# C45 — pause and resume by signals, the data file is closed once
-/

set_option linter.unusedSimpArgs false
set_option linter.unusedVariables false

namespace Pico
namespace Sig

/-- The process still runs: neither finished nor left through a signal. -/
def Running (s : St) : Prop := s.pc ≠ .finished ∧ s.pc ≠ .exited

/-- Invariant of a run that was never paused. -/
structure Inv (n : Nat) (s : St) : Prop where
  sum : s.done + s.left = n
  body : s.pc = .body → 0 < s.left
  lock : s.lock = false
  cur : s.cur = 0
  openFile : Running s → s.live = some 0 ∧ s.closed = 0
  shut : ¬ Running s → s.live = none ∧ s.closed = 1
  fin : s.pc = .finished → s.left = 0

theorem inv_init (n : Nat) : Inv n (init n) := by
  constructor <;> simp [init, Running]

/-- Events a run can see that is never paused and gets no exit signal after its regular end. -/
def Harmless (s : St) : Ev → Prop
  | .main _ => True
  | .usr1 => False
  | .usr2 => True
  | .quit => s.pc ≠ .finished

theorem inv_step (n : Nat) (s : St) (e : Ev) (h : Inv n s) (he : Harmless s e) : ∃ s', step e s = .ok s' ∧ Inv n s' := by
  obtain ⟨h1, h2, h3, h4, h5, h6, h7⟩ := h
  obtain ⟨pc, left, done, cur, live, next, lock, recreate, closed⟩ := s
  simp only [Running] at *
  subst h3 h4
  cases e with
  | main ok =>
    cases pc with
    | test =>
      obtain ⟨l1, l2⟩ := h5 (by simp)
      subst l1 l2
      by_cases hl : left = 0
      · refine ⟨_, by simp [step, mainStep, hl, deleteFile]; rfl, ?_⟩
        constructor <;> simp_all [Running]
      · refine ⟨_, by simp [step, mainStep, hl]; rfl, ?_⟩
        constructor <;> simp_all [Running] <;> omega
    | body =>
      obtain ⟨l1, l2⟩ := h5 (by simp)
      subst l1 l2
      have := h2 rfl
      refine ⟨_, by simp [step, mainStep, writeStep]; rfl, ?_⟩
      constructor <;> simp_all [Running] <;> omega
    | wait =>
      obtain ⟨l1, l2⟩ := h5 (by simp)
      subst l1 l2
      refine ⟨_, by simp [step, mainStep, waitStep]; rfl, ?_⟩
      constructor <;> simp_all [Running]
    | finished =>
      refine ⟨_, by simp [step, mainStep]; rfl, ?_⟩
      constructor <;> simp_all [Running]
    | exited =>
      refine ⟨_, by simp [step, mainStep]; rfl, ?_⟩
      constructor <;> simp_all [Running]
  | usr1 => exact absurd he (by simp [Harmless])
  | usr2 =>
    refine ⟨_, by simp [step, handler]; rfl, ?_⟩
    constructor <;> simp_all [Running]
  | quit =>
    by_cases hx : pc = .exited
    · refine ⟨_, by simp [step, handler, hx]; rfl, ?_⟩
      constructor <;> simp_all [Running]
    · have hf : pc ≠ .finished := he
      obtain ⟨l1, l2⟩ := h5 ⟨hf, hx⟩
      subst l1 l2
      refine ⟨_, by simp [step, handler, hx, deleteFile]; rfl, ?_⟩
      constructor <;> simp_all [Running]

/-- The events of a history are harmless in the states they meet. -/
def AllHarmless : List Ev → St → Prop
  | [], _ => True
  | e :: l, s => Harmless s e ∧ ∀ s', step e s = .ok s' → AllHarmless l s'

/-- **C45 (partial): the data file is closed exactly once.**  In every history without a pause request — any interleaving
of the main program with resume signals and, before its regular end, exit signals — nothing undefined happens, no step is
lost, and the data file is open as long as the program runs and was closed exactly once when it has ended, regularly
(then all steps are done) or by a signal.
Missing: histories with a pause request, see the theorems below. -/
theorem C45_close_partial (n : Nat) (l : List Ev) (hl : AllHarmless l (init n)) :
    ∃ s, run l (init n) = .ok s ∧ s.done + s.left = n ∧
      (Running s → s.live = some 0 ∧ s.closed = 0) ∧ (¬ Running s → s.live = none ∧ s.closed = 1) ∧
      (s.pc = .finished → s.done = n) := by
  have key : ∀ (l : List Ev) (s : St), Inv n s → AllHarmless l s → ∃ s', run l s = .ok s' ∧ Inv n s' := by
    intro l
    induction l with
    | nil => intro s h _; exact ⟨s, rfl, h⟩
    | cons e l ih =>
      intro s h hh
      obtain ⟨s', e1, h'⟩ := inv_step n s e h hh.1
      obtain ⟨s'', e2, h''⟩ := ih s' h' (hh.2 s' e1)
      exact ⟨s'', by unfold run at *; rw [loop_cons, e1, Res.ok_bind, e2], h''⟩
  obtain ⟨s, h1, h2⟩ := key l (init n) (inv_init n) hl
  refine ⟨s, h1, h2.sum, h2.openFile, h2.shut, ?_⟩
  intro hf
  have := h2.fin hf
  have := h2.sum
  omega

/-- **C45: a paused program waits.**  A pause request that reaches the program between two steps closes the file, and
then the program does nothing, for any number of turns and further pause requests, until the resume signal comes. -/
theorem C45_waits (s : St) (hs : s.pc = .wait) (hl : s.lock = false) (hf : s.live = some s.cur) (l : List Ev)
    (h : ∀ e ∈ l, e = .usr1 ∨ ∃ ok, e = .main ok) (hr : s.recreate = false) :
    run (.usr1 :: l) s = .ok { s with live := none, closed := s.closed + 1, lock := true } := by
  unfold run
  rw [loop_cons]
  have e1 : step .usr1 s = .ok { s with live := none, closed := s.closed + 1, lock := true } := by
    simp [step, handler, hs, hl, deleteFile, hf]
  rw [e1, Res.ok_bind]
  induction l with
  | nil => rfl
  | cons e l ih =>
    rw [loop_cons]
    have : step e { s with live := none, closed := s.closed + 1, lock := true } =
        .ok { s with live := none, closed := s.closed + 1, lock := true } := by
      rcases h e (List.mem_cons_self ..) with rfl | ⟨ok, rfl⟩
      · simp [step, handler, hs]
      · simp [step, mainStep, hs, waitStep, hr]
    rw [this, Res.ok_bind]
    exact ih (fun x hx => h x (List.mem_cons_of_mem _ hx))

/-- **C45 (partial): the resume signal lets a paused program go on** (if the file can be opened): the file is open again
and no step was lost or repeated. -/
theorem C45_resume_partial (s : St) (hs : s.pc = .wait) (hl : s.lock = true) :
    ∃ s', run [.usr2, .main true, .main true] s = .ok s' ∧ s'.pc = .test ∧ s'.lock = false ∧
      s'.live = some s'.cur ∧ s'.left = s.left ∧ s'.done = s.done := by
  refine ⟨{ s with pc := .test, cur := s.next, live := some s.next, next := s.next + 1, lock := false, recreate := false }, ?_, rfl, rfl, rfl, rfl, rfl⟩
  simp [run, loop, step, handler, mainStep, waitStep, hs, hl]

/-- Where C45 fails: a pause request that arrives in the middle of a step closes the file under the step's output. -/
theorem C45_pause_in_step_fails (s : St) (hs : s.pc = .body) (hl : s.lock = false) (hf : s.live = some s.cur) (ok : Bool) :
    run [.usr1, .main ok] s = .ub := by
  simp [run, loop, step, handler, mainStep, writeStep, deleteFile, hs, hl, hf]

/-- Where C45 fails: after every pause and resume, the next output goes through the pointer to the closed file. -/
theorem C45_output_after_resume_fails (s : St) (hs : s.pc = .wait) (hl : s.lock = false) (hf : s.live = some s.cur)
    (hn : 0 < s.next) (hleft : 0 < s.left) :
    run [.usr1, .usr2, .main true, .main true, .main true, .main true] s = .ub := by
  have h1 : s.left ≠ 0 := by omega
  have h2 : s.next ≠ 0 := by omega
  simp [run, loop, step, handler, mainStep, waitStep, writeStep, deleteFile, hs, hl, hf, h1, h2]

/-- Where C45 fails: an exit signal to a paused program deletes the file a second time. -/
theorem C45_quit_paused_fails (s : St) (hs : s.pc ≠ .exited) (hl : s.lock = false) (hf : s.live = some s.cur) :
    run [.usr1, .quit] s = .ub := by
  simp [run, loop, step, handler, deleteFile, hs, hl, hf]

/-- Where C45 fails: so does an exit signal after the regular end. -/
theorem C45_quit_finished_fails (n : Nat) (s : St) (hs : Inv n s) (hf : s.pc = .finished) : run [.quit] s = .ub := by
  have := hs.shut (by simp [Running, hf])
  simp [run, loop, step, handler, deleteFile, hf, this.1]

/-- Reachable states the theorems above are about. -/
example : run [.main true, .main true] (init 3) = .ok ⟨.wait, 2, 1, 0, some 0, 1, false, false, 0⟩ := rfl
example : run [.main true] (init 3) = .ok ⟨.body, 3, 0, 0, some 0, 1, false, false, 0⟩ := rfl
example : ∃ s, run [.main true, .usr2, .main true, .main true, .main true] (init 1) = .ok s ∧ s.pc = .finished ∧ s.closed = 1 ∧
    s.done = 1 := ⟨_, rfl, rfl, rfl, rfl⟩
example : AllHarmless [.main true, .usr2, .main true, .quit] (init 2) := by
  refine ⟨trivial, fun s hs => ⟨trivial, fun s2 h2 => ⟨trivial, fun s3 h3 => ⟨?_, fun _ _ => trivial⟩⟩⟩⟩
  cases hs; cases h2; cases h3
  simp [Harmless]

end Sig
end Pico
