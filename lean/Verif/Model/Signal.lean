import Verif.Model.Base

/-!
# Pause, resume and exit by signals  (`/repo/src/PiCoPiC.cpp:46-99,255-272,299-400`, `/repo/src/outController.cpp:300-306`)

The data file object: `file` points to an object created by `new HighFive::File`; deleting it closes the file.  Objects
are numbered in the order of their creation; the writers keep the pointer they got at the start (object 0).  A signal may
arrive between any two actions of the main program listed here (signals inside of an action are not modelled).
-/

namespace Pico
namespace Sig

/-- Position of the main program. -/
inductive Pc where
  /-- at the condition of the main loop -/
  | test
  /-- before the output of a step -/
  | body
  /-- at `while (lock_)` after a step -/
  | wait
  /-- after the final `delete file` -/
  | finished
  /-- process left through `exit` in the signal handler -/
  | exited
  deriving DecidableEq, Repr

structure St where
  pc : Pc
  /-- steps still to do, steps done -/
  left : Nat
  done : Nat
  /-- object `file` points to -/
  cur : Nat
  /-- the object that exists, if any -/
  live : Option Nat
  /-- number of the next object -/
  next : Nat
  /-- `lock_`, `recreate_writers_` -/
  lock : Bool
  recreate : Bool
  /-- how often a file was closed -/
  closed : Nat
  deriving DecidableEq, Repr

/-- State before the main loop, `/repo/src/PiCoPiC.cpp:255-297`; `n` is the number of steps of the run. -/
def init (n : Nat) : St := ⟨.test, n, 0, 0, some 0, 1, false, false, 0⟩

/-- What can happen next. -/
inductive Ev where
  /-- the main program does its next action; `ok` says whether opening a file succeeds -/
  | main (ok : Bool)
  | usr1
  | usr2
  /-- one of the signals that end the program -/
  | quit
  deriving DecidableEq, Repr

/-- `delete file`. -/
def deleteFile (s : St) : Res St :=
  if s.live = some s.cur then .ok { s with live := none, closed := s.closed + 1 } else .ub

/-- Output of a step through the pointer of the writers, `/repo/src/outEngine/outEngineHDF5.cpp:56`. -/
def writeStep (s : St) : Res St :=
  if s.live = some 0 then .ok { s with pc := .wait, left := s.left - 1, done := s.done + 1 } else .ub

/-- One turn of `while (lock_)`, `/repo/src/PiCoPiC.cpp:349-390`; leaving it if the lock is open. -/
def waitStep (ok : Bool) (s : St) : Res St :=
  if s.lock then
    if s.recreate then
      if ok then .ok { s with cur := s.next, live := some s.next, next := s.next + 1, lock := false, recreate := false }
      else .fatal
    else .ok s
  else .ok { s with pc := .test }

/-- Next action of the main program, `/repo/src/PiCoPiC.cpp:299-398`. -/
def mainStep (ok : Bool) (s : St) : Res St :=
  match s.pc with
  | .test => if s.left = 0 then deleteFile { s with pc := .finished } else .ok { s with pc := .body }
  | .body => writeStep s
  | .wait => waitStep ok s
  | .finished => .ok s
  | .exited => .ok s

/-- `signal_handler`, `/repo/src/PiCoPiC.cpp:59-99`.  After the process is gone nothing happens any more. -/
def handler (e : Ev) (s : St) : Res St :=
  if s.pc = .exited then .ok s
  else match e with
  | .usr1 => if s.lock then .ok s else deleteFile s >>= fun s => .ok { s with lock := true }
  | .usr2 => if s.lock then .ok { s with recreate := true } else .ok s
  | .quit => deleteFile s >>= fun s => .ok { s with pc := .exited }
  | .main _ => .ok s

def step (e : Ev) (s : St) : Res St :=
  match e with
  | .main ok => mainStep ok s
  | e => handler e s

/-- A whole history. -/
def run (h : List Ev) (s : St) : Res St := loop step h s

end Sig
end Pico
