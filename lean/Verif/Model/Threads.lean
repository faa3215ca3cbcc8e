import Verif.Model.Pic

/-!
# The main loop with several threads  (`/repo/src/SMB.cpp:219-346,565-596,783-826,1009-1044,1231-1308`)

Every `#pragma omp parallel for` divides the visits of a loop over domains among threads.  Here every visit may run at the same time as every
other visit of the same loop: a visit is cut into any number of atomic actions, and the actions of all visits are executed in any order that keeps
the order inside every visit.  Executions with fewer threads are among these.  All loops end with a barrier, so loops follow each other.

The atomic actions of a visit access the same memory as the visit (its domain, or the pair of domains whose overlays are exchanged); the C++
memory model gives programs without data races such executions.  Collisions, beams and output are not included.
-/

namespace Pico
namespace Threads

open SMB Yee Pic

/-- `o` contains the elements of all lists of `ts`, those of each list in its order. -/
inductive Interleaved {α : Type} : List (List α) → List α → Prop
  | done {ts : List (List α)} : (∀ t ∈ ts, t = []) → Interleaved ts []
  | step {a b : List (List α)} {x : α} {t o : List α} : Interleaved (a ++ t :: b) o → Interleaved (a ++ (x :: t) :: b) (x :: o)

/-- Actions one after another. -/
def seq {σ : Type} (l : List (σ → Res σ)) (s : σ) : Res σ := loop (fun f s => f s) l s

/-- The action accesses only memory in `S`: it changes nothing else, and what it does depends on nothing else. -/
def Only {L V : Type} (S : L → Prop) (f : (L → V) → Res (L → V)) : Prop :=
  (∀ s s', f s = .ok s' → ∀ l, ¬ S l → s' l = s l) ∧
  (∀ s t s', (∀ l, S l → s l = t l) → f s = .ok s' → ∃ t', f t = .ok t' ∧ ∀ l, S l → s' l = t' l)

/-- A parallel loop over `l` that starts in `s` can have the outcome `r`; visit `p` does `body p` and accesses the memory `S p`. -/
def ParFor {ι L V : Type} (S : ι → L → Prop) (body : ι → (L → V) → Res (L → V)) (l : List ι) (s : L → V) (r : Res (L → V)) : Prop :=
  ∃ acts : ι → List ((L → V) → Res (L → V)),
    (∀ p ∈ l, (∀ a ∈ acts p, Only (S p) a) ∧ ∀ s, seq (acts p) s = body p s) ∧ ∃ o, Interleaved (l.map acts) o ∧ seq o s = r

/-- One stage of the program after another; if the first stops the program, the second does not start. -/
def Then {σ τ υ : Type} (R : σ → Res τ → Prop) (Q : τ → Res υ → Prop) (s : σ) (r : Res υ) : Prop :=
  (∃ t, R s (.ok t) ∧ Q t r) ∨ (R s .fatal ∧ r = .fatal) ∨ (R s .ub ∧ r = .ub)

variable {K : Type}

/-- `#pragma omp parallel for collapse(2)` over the domains, `/repo/src/SMB.cpp:1233-1240,1243-1251,1268-1277`. -/
def Each (domR domZ : Nat) (f : Nat → Nat → Mem K → Res (Mem K)) (M : Solvers K) (r : Res (Solvers K)) : Prop :=
  ∃ x, ParFor (fun q l => l = q) (fun q s => f q.1 q.2 (s q) >>= fun m => .ok (fun l => if l = q then m else s l)) (idx2 0 domR 0 domZ)
    (fun q => M q.1 q.2) x ∧ r = (x >>= fun s => .ok fun i j => s (i, j))

/-- The three exchanges of a visit, `/repo/src/SMB.cpp:577-594,794-822,1020-1043`. -/
inductive Dir where
  | x | y | xy
  deriving DecidableEq

def exch [Add K] (domR domZ : Nat) (d : Dir) (p : Nat × Nat) (D : Domains K) : Res (Domains K) :=
  match d with
  | .x => exchX domR p.1 p.2 D
  | .y => exchY domZ p.1 p.2 D
  | .xy => exchXY domR domZ p.1 p.2 D

/-- Component grids of all domains. -/
abbrev Grids (K : Type) := Nat × Nat × Comp → Grid K

/-- One exchange of one component, `/repo/include/algo/grid3d.hpp:43-62`. -/
def exchComp [Add K] (domR domZ : Nat) (p : Nat × Nat) (x : Dir × Comp) (G : Grids K) : Res (Grids K) :=
  exch domR domZ x.1 p (fun i j => G (i, j, x.2)) >>= fun D => .ok fun l => if l.2.2 = x.2 then D l.1 l.2.1 else G l

/-- A visit: for each direction all components, `/repo/src/SMB.cpp:574-594,790-823,1016-1044`. -/
def visit [Add K] (domR domZ : Nat) (cs : List Comp) (p : Nat × Nat) (G : Grids K) : Res (Grids K) :=
  loop (exchComp domR domZ p) ([Dir.x, .y, .xy].flatMap fun d => cs.map fun c => (d, c)) G

/-- The domains a visit accesses: its own and the ones above, to the right, and above to the right. -/
def near (p : Nat × Nat) (l : Nat × Nat × Comp) : Prop := (l.1 = p.1 ∨ l.1 = p.1 + 1) ∧ (l.2.1 = p.2 ∨ l.2.1 = p.2 + 1)

/-- The four parallel loops of an exchange, one after another, `/repo/src/SMB.cpp:568-573,785-790,1011-1016`. -/
def Sweeps [Add K] (domR domZ : Nat) (cs : List Comp) : List (Nat × Nat) → Grids K → Res (Grids K) → Prop
  | [], G, r => r = .ok G
  | c :: l, G, r => Then (ParFor near (visit domR domZ cs) (colour domR domZ c)) (Sweeps domR domZ cs l) G r

/-- `field_e_overlay`, `field_h_overlay`, `current_overlay`, `/repo/src/SMB.cpp:565-596,783-826,1009-1044`. -/
def Overlay [Add K] (P : Nat → Nat → Par K) (domR domZ : Nat) (cs : List Comp) (M : Solvers K) (r : Res (Solvers K)) : Prop :=
  ∃ x, Sweeps domR domZ cs colours (fun l => toGrid (P l.1 l.2.1) (M l.1 l.2.1) l.2.2) x ∧
    r = (x >>= fun G => .ok fun i j => cs.foldl (fun m c => ofGrid (P i j) m c (G (i, j, c))) (M i j))

/-- `SMB::solve_maxvell`, `/repo/src/SMB.cpp:1231-1252`. -/
def Maxwell [Field K] (P : Nat → Nat → Par K) (domR domZ : Nat) : Solvers K → Res (Solvers K) → Prop :=
  Then (Each domR domZ fun i j => calcE (P i j)) (Then (Overlay P domR domZ [.er, .ep, .ez])
    (Then (Each domR domZ fun i j => calcH (P i j)) (Overlay P domR domZ [.hr, .hp, .hz, .fr, .fp, .fz])))

/-- `SMB::solve_current`, `/repo/src/SMB.cpp:1266-1279`. -/
def Currents (E : Env) (ps : Nat → Nat → List (VB.Part ℝ)) : Solvers ℝ → Res (Solvers ℝ) → Prop :=
  Then (Each E.domR E.domZ fun i j m =>
      E.dist (domCtx E.p E.domR E.domZ E.e i j) (ps i j) (VB.resetCurrent (domCtx E.p E.domR E.domZ E.e i j).g m))
    (Overlay (domPar E.p E.domR E.domZ) E.domR E.domZ [.jr, .jp, .jz])

/-- The particles of a domain, with their species. -/
def listed (D : Doms) (i j : Nat) : List (Nat × Nat) := (D i j).flatMap fun sp => sp.parts.map fun o => (sp.id, o.tag)

/-- Push and move of all particles, `/repo/src/SMB.cpp:1282-1305` (without collisions).  `f` is what happens to the particle at an address; it
does what `Moves` says (the flag that the default pusher does not initialise may differ from particle to particle), and fails only if no move is
possible. -/
def Pushes (E : Env) (M : Solvers ℝ) (D : Doms) (heap : Nat → Part ℝ) (r : Res (Nat → Part ℝ)) : Prop :=
  ∃ f : Nat → Nat → Nat × Nat → Part ℝ → Res (Part ℝ),
    (∀ i j x a b, f i j x a = .ok b → Moves E i j (M i j) x.1 a b) ∧ (∀ i j x a b, Moves E i j (M i j) x.1 a b → ∃ b', f i j x a = .ok b') ∧
    ParFor (fun q t => t ∈ (listed D q.1 q.2).map Prod.snd)
      (fun q => loop (fun x h => f q.1 q.2 x (h x.2) >>= fun b => .ok fun t => if t = x.2 then b else h t) (listed D q.1 q.2))
      (idx2 0 E.domR 0 E.domZ) heap r

/-- The domains whose particle lists the row `i` of domains of a loop accesses: the row itself, and the domains it hands particles to. -/
def touched (g : Geo) (c : Nat × Nat) (D : Doms) (i : Nat) (q : Nat × Nat) : Prop :=
  q.1 = i ∨ ∃ j ∈ stride c.2 g.domZ, ∃ sp ∈ D i j, ∃ o ∈ sp.parts,
    classify g i j ((domDims g i j).r1 - (domDims g i j).r0) ((domDims g i j).z1 - (domDims g i j).z0) o = .ok (.move q.1 q.2)

/-- A function of the lists of all domains, for `Only`. -/
def onDoms (f : Doms → Res Doms) (F : Nat × Nat → List Sp) : Res (Nat × Nat → List Sp) :=
  f (fun i j => F (i, j)) >>= fun D => .ok fun q => D q.1 q.2

/-- One parallel loop of the hand-over, `/repo/src/SMB.cpp:222-345`: the rows of domains at the same time, the domains of a row one after
another.  As long as no other row interferes, the actions of a row do what the row does.  If no two rows access the list of the same domain, each
stays with its own; otherwise there is a data race, and nothing is said about what the actions access.  The counters `j_c` and `r_c`, which all
threads increment and which are only used in messages, are left out. -/
def HandRows (g : Geo) (c : Nat × Nat) (D : Doms) (r : Res Doms) : Prop :=
  ∃ acts : Nat → List ((Nat × Nat → List Sp) → Res (Nat × Nat → List Sp)),
    (∀ i ∈ stride c.1 g.domR, ∀ F : Nat × Nat → List Sp, (∀ q, (F q).map Sp.id = (D q.1 q.2).map Sp.id) →
      (∀ q, touched g c D i q → F q = D q.1 q.2) →
      seq (acts i) F = onDoms (loop (collectDom g) ((stride c.2 g.domZ).map fun j => (i, j))) F) ∧
    ((∀ i ∈ stride c.1 g.domR, ∀ i' ∈ stride c.1 g.domR, i ≠ i' → ∀ q, ¬ (touched g c D i q ∧ touched g c D i' q)) →
      ∀ i ∈ stride c.1 g.domR, ∀ a ∈ acts i, Only (touched g c D i) a) ∧
    ∃ o, Interleaved ((stride c.1 g.domR).map acts) o ∧ r = (seq o (fun q => D q.1 q.2) >>= fun F => .ok fun i j => F (i, j))

/-- The hand-over, `/repo/src/SMB.cpp:219-346`. -/
def Hand (g : Geo) : List (Nat × Nat) → Doms → Res Doms → Prop
  | [], D, r => r = .ok D
  | c :: l, D, r => Then (HandRows g c) (Hand g l) D r

/-- One pass of the main loop, `/repo/src/PiCoPiC.cpp:326-335`. -/
def TStep (E : Env) : State → Res State → Prop :=
  Then (fun S r => ∃ x, Maxwell (domPar E.p E.domR E.domZ) E.domR E.domZ S.M x ∧ r = (x >>= fun M => .ok { S with M := M }))
    (Then (fun S r => ∃ x, Pushes E S.M S.D S.heap x ∧ r = (x >>= fun h => .ok { S with heap := h }))
      (Then (fun S r => ∃ x, Hand (geoOf E.p E.domR E.domZ) colours (cellsOf S.heap S.D) x ∧ r = (x >>= fun D => .ok { S with D := D }))
        fun S r => ∃ x, Currents E (depositsOf E S.heap S.D) S.M x ∧ r = (x >>= fun M => .ok { S with M := M })))

/-- `n` passes of the main loop. -/
def TRun (E : Env) : Nat → State → Res State → Prop
  | 0, S, r => r = .ok S
  | n + 1, S, r => Then (TRun E n) (TStep E) S r

end Threads
end Pico
