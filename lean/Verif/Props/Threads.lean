import Verif.Lemmas.ThreadsHand
import Verif.Props.Pic

/-!
# C121: the results do not depend on the number of threads or on how they are scheduled
-/

set_option linter.unusedSimpArgs false
set_option linter.unusedVariables false
set_option linter.unusedSectionVars false

namespace Pico
namespace Threads

open SMB Yee Pic

/-- **C121.**  The field step: whatever the threads do when, the fields are those of the sequential program, and nothing undefined happens that
does not happen there. -/
theorem C121_fields {K : Type} [Field K] (P : Nat → Nat → Par K) (domR domZ : Nat) (M : Solvers K) :
    (∀ M', solveMaxwell P domR domZ M = .ok M' → ∀ r, Maxwell P domR domZ M r ↔ r = .ok M') ∧
    ∀ M', Maxwell P domR domZ M (.ok M') → solveMaxwell P domR domZ M = .ok M' :=
  follows_maxwell P domR domZ M

/-- **C121.**  The currents. -/
theorem C121_currents (E : Env) (ps : Nat → Nat → List (VB.Part ℝ)) (M : Solvers ℝ) :
    (∀ M', solveCurrent E.dist E.p E.domR E.domZ E.e ps M = .ok M' → ∀ r, Currents E ps M r ↔ r = .ok M') ∧
    ∀ M', Currents E ps M (.ok M') → solveCurrent E.dist E.p E.domR E.domZ E.e ps M = .ok M' :=
  follows_currents E ps M

/-! ### Particles -/

theorem mem_listed {D : Doms} {i j : Nat} {x : Nat × Nat} : x ∈ listed D i j ↔ ∃ sp ∈ D i j, ∃ o ∈ sp.parts, x = (sp.id, o.tag) := by
  unfold listed
  simp only [List.mem_flatMap, List.mem_map]
  constructor
  · rintro ⟨sp, h1, o, h2, rfl⟩
    exact ⟨sp, h1, o, h2, rfl⟩
  · rintro ⟨sp, h1, o, h2, rfl⟩
    exact ⟨sp, h1, o, h2, rfl⟩

theorem listed_once {E : Env} {ids : List Nat} (nd : ids.Nodup) {S : State} (A : Alive E ids S) {i j : Nat} (hi : i < E.domR) (hj : j < E.domZ) :
    ((listed S.D i j).map Prod.snd).Nodup := by
  have e : (listed S.D i j).map Prod.snd = ids.flatMap fun id => (SMB.parts S.D i j id).map (·.tag) := by
    have r := sp_rep (S.D i j) (by rw [A.species]; exact nd)
    rw [A.species] at r
    unfold listed
    rw [List.map_flatMap]
    have r2 : (S.D i j).flatMap (fun sp => (sp.parts.map fun o => (sp.id, o.tag)).map Prod.snd) =
        (S.D i j).flatMap fun sp => sp.parts.map (·.tag) := by
      refine List.flatMap_congr fun sp _ => ?_
      rw [List.map_map]
      rfl
    rw [r2]
    conv_lhs => rw [r]
    rw [List.flatMap_map]
    rfl
  rw [e, List.nodup_flatMap]
  have o := A.once
  rw [List.nodup_flatMap] at o
  have q : (i, j) ∈ allDoms (geoOf E.p E.domR E.domZ) := mem_allDoms.mpr ⟨hi, hj⟩
  refine ⟨fun id hid => ?_, List.Pairwise.imp ?_ o.2⟩
  · have := o.1 id hid
    unfold tagsOf at this
    exact (List.nodup_flatMap.1 this).1 _ q
  · intro a b h t ha hb
    refine h (List.mem_flatMap.2 ⟨(i, j), q, ha⟩) (List.mem_flatMap.2 ⟨(i, j), q, hb⟩)

theorem push_loop {V : Type} (f : Nat × Nat → V → Res V) (H : Nat → V) (l : List (Nat × Nat)) (nd : (l.map Prod.snd).Nodup) (h : Nat → V)
    (hf : ∀ x ∈ l, f x (h x.2) = .ok (H x.2)) :
    loop (fun x h => f x (h x.2) >>= fun b => .ok fun t => if t = x.2 then b else h t) l h = .ok fun t => if t ∈ l.map Prod.snd then H t else h t := by
  induction l generalizing h with
  | nil => rfl
  | cons x l ih =>
    rw [List.map_cons, List.nodup_cons] at nd
    rw [loop_cons, hf x (List.mem_cons_self ..), Res.ok_bind, Res.ok_bind, ih nd.2]
    · congr 1
      funext t
      by_cases c : t = x.2
      · subst c
        rw [if_neg nd.1, if_pos rfl, if_pos (by simp)]
      · rw [if_neg c]
        by_cases c' : t ∈ l.map Prod.snd
        · rw [if_pos c', if_pos (by rw [List.map_cons]; exact List.mem_cons_of_mem _ c')]
        · rw [if_neg c', if_neg (by rw [List.map_cons, List.mem_cons]; tauto)]
    · intro y hy
      have ne : y.2 ≠ x.2 := fun e => nd.1 (e ▸ List.mem_map_of_mem hy)
      rw [if_neg ne]
      exact hf y (List.mem_cons_of_mem _ hy)

theorem only_push {V : Type} (f : Nat × Nat → V → Res V) (l : List (Nat × Nat)) :
    Only (fun t => t ∈ l.map Prod.snd) (loop (fun x (h : Nat → V) => f x (h x.2) >>= fun b => .ok fun t => if t = x.2 then b else h t) l) := by
  refine only_loop l fun x hx => ?_
  constructor
  · intro s s' h t ht
    obtain ⟨b, _, h⟩ := bind_iff.1 h
    rw [← Res.ok.inj h]
    dsimp only
    rw [if_neg]
    rintro rfl
    exact ht (List.mem_map_of_mem hx)
  · intro s t s' ag h
    obtain ⟨b, e, h⟩ := bind_iff.1 h
    refine ⟨fun u => if u = x.2 then b else t u, ?_, fun u hu => ?_⟩
    · dsimp only
      rw [← ag x.2 (List.mem_map_of_mem hx), e]
      rfl
    · rw [← Res.ok.inj h]
      dsimp only
      rw [ag u hu]

theorem pushes_iff {E : Env} (h : Chamber E) (hk : Pusher.Relativistic E.kind) {ids : List Nat} (nd : ids.Nodup) {S : State} (A : Alive E ids S)
    (B : NoBorder E S) {M1 : Solvers ℝ} (e1 : solveMaxwell (domPar E.p E.domR E.domZ) E.domR E.domZ S.M = .ok M1) {heap : Nat → Part ℝ}
    (mv : ∀ i j, i < E.domR → j < E.domZ → ∀ sp ∈ S.D i j, ∀ o ∈ sp.parts, Moves E i j (M1 i j) sp.id (S.heap o.tag) (heap o.tag))
    (kp : ∀ a, (∀ i j, i < E.domR → j < E.domZ → ∀ sp ∈ S.D i j, ∀ o ∈ sp.parts, o.tag ≠ a) → heap a = S.heap a) (r : Res (Nat → Part ℝ)) :
    Pushes E M1 S.D S.heap r ↔ r = .ok heap := by
  have dis : (idx2 0 E.domR 0 E.domZ).Pairwise fun p q => ∀ x, ¬ (x ∈ (listed S.D p.1 p.2).map Prod.snd ∧ x ∈ (listed S.D q.1 q.2).map Prod.snd) := by
    refine List.Pairwise.imp_of_mem (fun {p q} hp hq ne x hx => ne ?_) (nodup_idx2 ..)
    rw [mem_idx2] at hp hq
    obtain ⟨y, hy, rfl⟩ := List.mem_map.1 hx.1
    obtain ⟨z, hz, e⟩ := List.mem_map.1 hx.2
    obtain ⟨sp, a1, o, a2, rfl⟩ := mem_listed.1 hy
    obtain ⟨sp', b1, o', b2, rfl⟩ := mem_listed.1 hz
    obtain ⟨k1, k2, _⟩ := once_place A.species A.once (by omega) (by omega) (by omega) (by omega) a1 b1 a2 b2 e.symm
    exact Prod.ext k1 k2
  have one : ∀ {i j : Nat}, i < E.domR → j < E.domZ → ∀ x ∈ listed S.D i j, ∀ b, Moves E i j (M1 i j) x.1 (S.heap x.2) b ↔ b = heap x.2 := by
    intro i j hi hj x hx b
    obtain ⟨sp, a1, o, a2, rfl⟩ := mem_listed.1 hx
    obtain ⟨v, _, _, m⟩ := moves_iff h hk A B e1 hi hj a1 a2
    have m' := (m _).1 (mv i j hi hj sp a1 o a2)
    dsimp only
    rw [m, m']
  have run : ∀ f : Nat → Nat → Nat × Nat → Part ℝ → Res (Part ℝ), (∀ i j x a b, f i j x a = .ok b → Moves E i j (M1 i j) x.1 a b) →
      (∀ i j x a b, Moves E i j (M1 i j) x.1 a b → ∃ b', f i j x a = .ok b') →
      loop (fun q : Nat × Nat => loop (fun x h => f q.1 q.2 x (h x.2) >>= fun b => .ok fun t => if t = x.2 then b else h t) (listed S.D q.1 q.2))
        (idx2 0 E.domR 0 E.domZ) S.heap = .ok heap := by
    intro f f1 f2
    have hf : ∀ q ∈ idx2 0 E.domR 0 E.domZ, ∀ x ∈ listed S.D q.1 q.2, f q.1 q.2 x (S.heap x.2) = .ok (heap x.2) := by
      intro q hq x hx
      rw [mem_idx2] at hq
      have k := one (by omega : q.1 < E.domR) (by omega : q.2 < E.domZ) x hx
      obtain ⟨b, eb⟩ := f2 q.1 q.2 x _ _ ((k _).2 rfl)
      rw [eb, (k b).1 (f1 _ _ _ _ _ eb)]
    have key : ∀ (l : List (Nat × Nat)) (g : Nat → Part ℝ), (∀ q ∈ l, q ∈ idx2 0 E.domR 0 E.domZ) →
        l.Pairwise (fun p q => ∀ x, ¬ (x ∈ (listed S.D p.1 p.2).map Prod.snd ∧ x ∈ (listed S.D q.1 q.2).map Prod.snd)) →
        (∀ q ∈ l, ∀ x ∈ listed S.D q.1 q.2, g x.2 = S.heap x.2) →
        loop (fun q : Nat × Nat => loop (fun x h => f q.1 q.2 x (h x.2) >>= fun b => .ok fun t => if t = x.2 then b else h t) (listed S.D q.1 q.2)) l g =
          .ok fun t => if ∃ q ∈ l, t ∈ (listed S.D q.1 q.2).map Prod.snd then heap t else g t := by
      classical
      intro l
      induction l with
      | nil => intro g _ _ _; simp [loop]
      | cons q l ih =>
        intro g hl hp hg
        have hq := hl q (List.mem_cons_self ..)
        have hq' := mem_idx2.1 hq
        rw [List.pairwise_cons] at hp
        rw [loop_cons, push_loop (f q.1 q.2) heap (listed S.D q.1 q.2) (listed_once nd A (by omega) (by omega)) g fun x hx => by
          rw [hg q (List.mem_cons_self ..) x hx]
          exact hf q hq x hx, Res.ok_bind, ih]
        · congr 1
          funext t
          by_cases c : t ∈ (listed S.D q.1 q.2).map Prod.snd
          · rw [if_pos c, ite_self, if_pos ⟨q, List.mem_cons_self .., c⟩]
          · rw [if_neg c]
            have : (∃ q' ∈ q :: l, t ∈ (listed S.D q'.1 q'.2).map Prod.snd) ↔ ∃ q' ∈ l, t ∈ (listed S.D q'.1 q'.2).map Prod.snd := by
              constructor
              · rintro ⟨q', h1, h2⟩
                rcases List.mem_cons.1 h1 with rfl | h1
                · exact absurd h2 c
                · exact ⟨q', h1, h2⟩
              · rintro ⟨q', h1, h2⟩
                exact ⟨q', List.mem_cons_of_mem _ h1, h2⟩
            simp only [this]
        · exact fun q' h' => hl q' (List.mem_cons_of_mem _ h')
        · exact hp.2
        · intro q' h' x hx
          rw [if_neg fun c => hp.1 q' h' x.2 ⟨c, List.mem_map_of_mem hx⟩]
          exact hg q' (List.mem_cons_of_mem _ h') x hx
    rw [key _ _ (fun q hq => hq) dis fun _ _ _ _ => rfl]
    congr 1
    funext t
    by_cases c : ∃ q ∈ idx2 0 E.domR 0 E.domZ, t ∈ (listed S.D q.1 q.2).map Prod.snd
    · rw [if_pos c]
    · rw [if_neg c, kp t]
      rintro i j hi hj sp hsp o ho rfl
      exact c ⟨(i, j), mem_idx2.2 ⟨⟨Nat.zero_le _, hi⟩, Nat.zero_le _, hj⟩, List.mem_map.2 ⟨(sp.id, o.tag), mem_listed.2 ⟨sp, hsp, o, ho, rfl⟩, rfl⟩⟩
  constructor
  · rintro ⟨f, f1, f2, pf⟩
    exact ((parfor (fun q _ => only_push (f q.1 q.2) (listed S.D q.1 q.2)) dis S.heap).1 heap (run f f1 f2) r).1 pf
  · rintro rfl
    classical
    let f : Nat → Nat → Nat × Nat → Part ℝ → Res (Part ℝ) := fun i j x a => if c : ∃ b, Moves E i j (M1 i j) x.1 a b then .ok c.choose else .ub
    have f1 : ∀ i j x a b, f i j x a = .ok b → Moves E i j (M1 i j) x.1 a b := by
      intro i j x a b e
      by_cases c : ∃ b, Moves E i j (M1 i j) x.1 a b
      · have e' : f i j x a = .ok c.choose := dif_pos c
        exact Res.ok.inj (e'.symm.trans e) ▸ c.choose_spec
      · have e' : f i j x a = .ub := dif_neg c
        exact nomatch e'.symm.trans e
    have f2 : ∀ i j x a b, Moves E i j (M1 i j) x.1 a b → ∃ b', f i j x a = .ok b' := by
      intro i j x a b m
      have c : ∃ b, Moves E i j (M1 i j) x.1 a b := ⟨b, m⟩
      exact ⟨c.choose, dif_pos c⟩
    exact ⟨f, f1, f2, ((parfor (fun q _ => only_push (f q.1 q.2) (listed S.D q.1 q.2)) dis S.heap).1 heap (run f f1 f2) _).2 rfl⟩

/-! ### Hand-over -/

/-- **C121.**  The hand-over: if no domain gets particles from both sides, the threads leave in every domain the particles of the sequential
program, in the same order. -/
theorem C121_handover_partial (g : Geo) (hnr : 0 < g.nr) (hnz : 0 < g.nz) (hdr : g.domR ∣ g.nr) (hdz : g.domZ ∣ g.nz)
    (ho : g.offR = 0 ∧ g.offZ = 0) (ids : List Nat) (nd : ids.Nodup) (D : Doms) (hD : ∀ i j, (D i j).map Sp.id = ids) (Ap : Apart g D) :
    ∃ D', collect g D = .ok D' ∧ ∀ r, Hand g colours D r ↔ r = .ok D' := by
  obtain ⟨A, hA⟩ := hdr
  obtain ⟨B, hB⟩ := hdz
  rw [Nat.mul_comm] at hA hB
  have Ev : SMB.Even g A B := ⟨hA, hB, Nat.pos_of_ne_zero (by rintro rfl; omega), Nat.pos_of_ne_zero (by rintro rfl; omega), ho.1, ho.2⟩
  have e := doms_rep D ids nd hD
  rw [e] at Ap
  obtain ⟨h, k1, k2⟩ := hand_apart Ev nd colours _ Ap
  rw [← e] at k1 k2
  exact ⟨_, k1, k2⟩

/-- Two rows of domains, or one, never meet. -/
theorem apart_two (g : Geo) (h : g.domR ≤ 2) (D : Doms) : Apart g D := by
  intro i j i' j' hi hi' hj hj' ne par
  omega

/-! ### Whole runs -/

theorem Then.iff {σ τ υ : Type} {R : σ → Res τ → Prop} {Q : τ → Res υ → Prop} {s : σ} {t : τ} (h : ∀ r, R s r ↔ r = .ok t) (r : Res υ) :
    Then R Q s r ↔ Q t r := by
  constructor
  · rintro (⟨t', a, b⟩ | ⟨a, _⟩ | ⟨a, _⟩)
    · exact Res.ok.inj ((h _).1 a) ▸ b
    · exact nomatch (h _).1 a
    · exact nomatch (h _).1 a
  · exact fun q => Or.inl ⟨t, (h _).2 rfl, q⟩

theorem stage {σ α : Type} {R : Res α → Prop} {a : α} (h : ∀ x, R x ↔ x = .ok a) (k : α → σ) (r : Res σ) :
    (∃ x, R x ∧ r = (x >>= fun a => .ok (k a))) ↔ r = .ok (k a) := by
  constructor
  · rintro ⟨x, h1, rfl⟩
    rw [(h x).1 h1]
    rfl
  · rintro rfl
    exact ⟨.ok a, (h _).2 rfl, rfl⟩

/-- No domain gets particles from both sides in the step from `S`. -/
def Calm (E : Env) (S : State) : Prop := ∀ T, Step E S T → Apart (geoOf E.p E.domR E.domZ) (cellsOf T.heap S.D)

theorem calm_two {E : Env} (h : E.domR ≤ 2) (S : State) : Calm E S := fun _ _ => apart_two (geoOf E.p E.domR E.domZ) h _

/-- **C121**, one step: with any number of threads and any schedule the step ends, in the state of the sequential program, if no domain gets
particles from both sides (with one or two rows of domains none ever does, `calm_two`).  Full statement (false, see `C121_rows_fails`): without this
condition. -/
theorem C121_step_partial {E : Env} (h : Chamber E) (hk : Pusher.Relativistic E.kind) (hz : Scheme E.dist)
    {ids : List Nat} (nd : ids.Nodup) {S : State} (A : Alive E ids S) (B : NoBorder E S) (C : Calm E S) :
    ∃ S', (∀ T, Step E S T ↔ T = S') ∧ ∀ r, TStep E S r ↔ r = .ok S' := by
  obtain ⟨S', s1, A', _⟩ := C97_step_partial h hk hz nd A B
  refine ⟨S', s1, fun r => ?_⟩
  have Ap := C S' ((s1 S').2 rfl)
  obtain ⟨M1, e1, mv, kp, e2, e3⟩ := (s1 S').2 rfl
  have g1 := h.div.r1
  have g2 := h.div.r2
  have g3 := h.div.z1
  have g4 := h.div.z2
  obtain ⟨D', d1, d2⟩ := C121_handover_partial (geoOf E.p E.domR E.domZ) (show 0 < E.p.nr by omega) (show 0 < E.p.nz by omega)
    h.div.r4 h.div.z4 ⟨h.r0, rfl⟩ ids nd (cellsOf S'.heap S.D) (fun i j => by
      rw [← A.species i j]
      unfold cellsOf
      rw [List.map_map]
      rfl) Ap
  obtain rfl := Res.ok.inj (d1.symm.trans e2)
  unfold TStep
  rw [Then.iff (t := { S with M := M1 }) (fun x => stage ((follows_maxwell _ _ _ S.M).1 M1 e1) (fun M => ({ S with M := M } : State)) x)]
  rw [Then.iff (t := { S with M := M1, heap := S'.heap })
    (fun x => stage (pushes_iff h hk nd A B e1 mv kp) (fun g => ({ S with M := M1, heap := g } : State)) x)]
  rw [Then.iff (t := { S with M := M1, heap := S'.heap, D := S'.D })
    (fun x => stage d2 (fun D => ({ S with M := M1, heap := S'.heap, D := D } : State)) x)]
  exact stage ((follows_currents E (depositsOf E S'.heap S'.D) M1).1 S'.M e3) (fun M => ({ S with M := M, heap := S'.heap, D := S'.D } : State)) r

/-- **C121**, any number of steps. -/
theorem C121_run_partial {E : Env} (h : Chamber E) (hk : Pusher.Relativistic E.kind) (hz : Scheme E.dist)
    {ids : List Nat} (nd : ids.Nodup) {S : State} (A : Alive E ids S) (n : Nat) (B : ∀ k T, k < n → Run E S k T → NoBorder E T)
    (C : ∀ k T, k < n → Run E S k T → Calm E T) :
    ∃ S', (∀ T, Run E S n T ↔ T = S') ∧ ∀ r, TRun E n S r ↔ r = .ok S' := by
  induction n with
  | zero =>
    refine ⟨S, fun T => ⟨fun r => ?_, fun e => e ▸ .start⟩, fun r => Iff.rfl⟩
    cases r
    rfl
  | succ n ih =>
    obtain ⟨S1, r1, t1⟩ := ih (fun k T hk r => B k T (by omega) r) fun k T hk r => C k T (by omega) r
    have R1 := (r1 S1).mpr rfl
    obtain ⟨S1', r1', A1, _⟩ := C97_run_partial h hk hz nd A n fun k T hk r => B k T (by omega) r
    obtain rfl := (r1' S1).1 R1
    obtain ⟨S2, r2, t2⟩ := C121_step_partial h hk hz nd A1 (B n S1 (by omega) R1) (C n S1 (by omega) R1)
    refine ⟨S2, fun T => ⟨fun r => ?_, fun e => ?_⟩, fun r => ?_⟩
    · cases r with
      | step ra rb =>
        rw [(r1 _).mp ra] at rb
        exact (r2 T).mp rb
    · rw [e]
      exact .step R1 ((r2 S2).mpr rfl)
    · show Then (TRun E n) (TStep E) S r ↔ _
      rw [Then.iff t1, t2]

/-- **C121**, chambers with one or two rows of domains. -/
theorem C121_two_rows {E : Env} (h : Chamber E) (hk : Pusher.Relativistic E.kind) (hz : Scheme E.dist) (h2 : E.domR ≤ 2)
    {ids : List Nat} (nd : ids.Nodup) {S : State} (A : Alive E ids S) (n : Nat) (B : ∀ k T, k < n → Run E S k T → NoBorder E T) :
    ∃ S', (∀ T, Run E S n T ↔ T = S') ∧ ∀ r, TRun E n S r ↔ r = .ok S' :=
  C121_run_partial h hk hz nd A n B fun _ T _ _ => calm_two h2 T

/-- **C121**, chambers that are not divided: no conditions on the run. -/
theorem C121_single {E : Env} (h : Chamber E) (hk : Pusher.Relativistic E.kind) (hz : Scheme E.dist) (hR : E.domR = 1) (hZ : E.domZ = 1)
    (hc : HalfCell E) {ids : List Nat} (nd : ids.Nodup) {S : State} (A : Alive E ids S) (n : Nat) :
    ∃ S', (∀ T, Run E S n T ↔ T = S') ∧ ∀ r, TRun E n S r ↔ r = .ok S' :=
  C121_two_rows h hk hz (by omega) nd A n fun k T _ r => by
    obtain ⟨T', e, A', _⟩ := C97_single h hk hz hR hZ hc nd A k
    exact no_border h hk hR hZ hc ((e T).1 r ▸ A')

/-! ### More rows -/

theorem interleaved_swap {α : Type} (a b : List α) : Interleaved [a, b] (b ++ a) := by
  induction b with
  | nil =>
    have := interleaved_flatten [a, []]
    simpa using this
  | cons x b ih => exact Interleaved.step (a := [a]) ih

/-- Two particles that have to go to the domain `(1, 0)`, from below and from above. -/
def exMeet : PF := fun i j _ => if (i = 0 ∨ i = 2) ∧ j = 0 then [⟨3, 0, i⟩] else []

theorem exEven_even : SMB.Even exEven 2 4 := ⟨rfl, rfl, by decide, by decide, rfl, rfl⟩

theorem meet_rows (l : List (Nat × Nat)) (hl : l = [(0, 0), (2, 0)] ∨ l = [(2, 0), (0, 0)]) :
    HandRows exEven (0, 0) (ofF [7] exMeet) (.ok (ofF [7] fun a b id => l.foldl (stepF exEven 2 4) (fun a b => exMeet a b id) a b)) := by
  have hm : ∀ p ∈ l, p.1 < exEven.domR ∧ p.2 < exEven.domZ := by rcases hl with rfl | rfl <;> decide
  have run := row_even exEven_even [7] (by simp) l hm exMeet
  have one : ∀ i F, seq [onDoms (loop (collectDom exEven) ((stride 0 exEven.domZ).map fun j => (i, j)))] F =
      onDoms (loop (collectDom exEven) ((stride 0 exEven.domZ).map fun j => (i, j))) F := by
    intro i F
    rw [seq_cons]
    cases onDoms (loop (collectDom exEven) ((stride 0 exEven.domZ).map fun j => (i, j))) F <;> rfl
  refine ⟨fun i => [onDoms (loop (collectDom exEven) ((stride 0 exEven.domZ).map fun j => (i, j)))], fun i _ F _ _ => one i F, fun dis => ?_,
    l.map fun p => onDoms (loop (collectDom exEven) ((stride 0 exEven.domZ).map fun j => (p.1, j))), ?_, ?_⟩
  · refine absurd ⟨?_, ?_⟩ (dis 0 (by decide) 2 (by decide) (by decide) (1, 0))
    · exact Or.inr ⟨0, by decide, ⟨7, [⟨3, 0, 0⟩]⟩, by decide, ⟨3, 0, 0⟩, by decide, by decide⟩
    · exact Or.inr ⟨0, by decide, ⟨7, [⟨3, 0, 2⟩]⟩, by decide, ⟨3, 0, 2⟩, by decide, by decide⟩
  · rcases hl with rfl | rfl
    · exact interleaved_flatten [[_], [_]]
    · exact interleaved_swap [_] [_]
  · have key : ∀ (l : List (Nat × Nat)) (hm : ∀ p ∈ l, p.1 < exEven.domR ∧ p.2 = 0) (D : Doms),
        (seq (l.map fun p => onDoms (loop (collectDom exEven) ((stride 0 exEven.domZ).map fun j => (p.1, j)))) (fun q => D q.1 q.2) >>=
          fun F => .ok fun i j => F (i, j)) = loop (collectDom exEven) l D := by
      intro l
      induction l with
      | nil => intro _ D; rfl
      | cons p l ih =>
        intro hm D
        have hp := (hm p (List.mem_cons_self ..)).2
        obtain ⟨a, b⟩ := p
        dsimp only at hp
        subst hp
        have e : (stride 0 exEven.domZ).map (fun j => (a, j)) = [(a, 0)] := rfl
        rw [List.map_cons, seq_cons, loop_cons]
        dsimp only
        rw [e]
        have e2 : onDoms (loop (collectDom exEven) [(a, 0)]) (fun q => D q.1 q.2) = (collectDom exEven (a, 0) D >>= fun D => .ok fun q => D q.1 q.2) := by
          show ((loop (collectDom exEven) [(a, 0)] D) >>= fun D => .ok fun q : Nat × Nat => D q.1 q.2) = _
          rw [loop_cons]
          cases collectDom exEven (a, 0) D <;> rfl
        rw [e2]
        cases collectDom exEven (a, 0) D with
        | ok D' => exact ih (fun q hq => hm q (List.mem_cons_of_mem _ hq)) D'
        | fatal => rfl
        | ub => rfl
    have h0 : ∀ p ∈ l, p.1 < exEven.domR ∧ p.2 = 0 := by rcases hl with rfl | rfl <;> decide
    exact (run.symm.trans (key l h0 (ofF [7] exMeet)).symm)

theorem meet_apart (l : List (Nat × Nat)) (hl : l = [(0, 0), (2, 0)] ∨ l = [(2, 0), (0, 0)]) :
    Apart exEven (ofF [7] fun a b id => l.foldl (stepF exEven 2 4) (fun a b => exMeet a b id) a b) := by
  have pl : ∀ i j, ∀ o ∈ l.foldl (stepF exEven 2 4) (fun a b => exMeet a b 7) i j, own exEven 2 4 o = some (i, j) := by
    intro i j o ho
    by_contra ne
    have := sub_fold (g := exEven) (A := 2) (B := 4) l (fun a b => exMeet a b 7) i j o ho ne
    unfold exMeet at this
    dsimp only at this
    split at this
    · next c =>
      obtain ⟨c1, rfl⟩ := c
      have em : l.foldl (stepF exEven 2 4) (fun a b => exMeet a b 7) i 0 = [] := by
        rcases hl with rfl | rfl <;> rcases c1 with rfl | rfl <;> decide
      rw [em] at ho
      exact nomatch ho
    · exact nomatch this
  intro i j i' j' hi hi' hj hj' ne par sp hsp o ho q q1 q2 qo qn
  obtain ⟨id, hid, rfl⟩ := mem_ofF.1 hsp
  rw [List.mem_singleton] at hid
  subst hid
  have := (owns_iff exEven_even _ _ q1 q2 o).1 qo
  rw [pl i j o ho] at this
  exact absurd (Option.some.inj this).symm qn

/-- **C121**, refuted for more than two rows of domains: two domains of the same loop append to the list of the domain between them, and the order
of the particles in it depends on which thread is faster, even if appending were atomic. -/
theorem C121_rows_fails : ∃ D1 D2 : Doms, Hand exEven colours (ofF [7] exMeet) (.ok D1) ∧ Hand exEven colours (ofF [7] exMeet) (.ok D2) ∧
    D1 1 0 = [⟨7, [⟨3, 0, 0⟩, ⟨3, 0, 2⟩]⟩] ∧ D2 1 0 = [⟨7, [⟨3, 0, 2⟩, ⟨3, 0, 0⟩]⟩] := by
  have key : ∀ l : List (Nat × Nat), (l = [(0, 0), (2, 0)] ∨ l = [(2, 0), (0, 0)]) → ∃ D1 : Doms, Hand exEven colours (ofF [7] exMeet) (.ok D1) ∧
      loop (collectDom exEven) ([(0, 1), (1, 0), (1, 1)].flatMap (colour exEven.domR exEven.domZ))
        (ofF [7] fun a b id => l.foldl (stepF exEven 2 4) (fun a b => exMeet a b id) a b) = .ok D1 := by
    intro l hl
    obtain ⟨h, e, k⟩ := hand_apart exEven_even (ids := [7]) (by simp) [(0, 1), (1, 0), (1, 1)] _ (meet_apart l hl)
    exact ⟨_, Or.inl ⟨_, meet_rows l hl, (k _).2 rfl⟩, e⟩
  obtain ⟨D1, h1, e1⟩ := key _ (Or.inl rfl)
  obtain ⟨D2, h2, e2⟩ := key _ (Or.inr rfl)
  refine ⟨D1, D2, h1, h2, ?_, ?_⟩
  · have : (loop (collectDom exEven) ([(0, 1), (1, 0), (1, 1)].flatMap (colour exEven.domR exEven.domZ))
        (ofF [7] fun a b id => [(0, 0), (2, 0)].foldl (stepF exEven 2 4) (fun a b => exMeet a b id) a b) >>= fun D => .ok (D 1 0)) =
        Res.ok [⟨7, [⟨3, 0, 0⟩, ⟨3, 0, 2⟩]⟩] := by decide
    rw [e1] at this
    exact Res.ok.inj this
  · have : (loop (collectDom exEven) ([(0, 1), (1, 0), (1, 1)].flatMap (colour exEven.domR exEven.domZ))
        (ofF [7] fun a b id => [(2, 0), (0, 0)].foldl (stepF exEven 2 4) (fun a b => exMeet a b id) a b) >>= fun D => .ok (D 1 0)) =
        Res.ok [⟨7, [⟨3, 0, 2⟩, ⟨3, 0, 0⟩]⟩] := by decide
    rw [e2] at this
    exact Res.ok.inj this

/-- The hypotheses of `C121_step_partial`: a particle that crosses a corner between four domains. -/
example : ∃ S', (∀ T, Step (exEnv 2 2 0) (exState 0 (exPart (19/10) (19/10) (3/10) (4/10) 1 1)) T ↔ T = S') ∧
    ∀ r, TStep (exEnv 2 2 0) (exState 0 (exPart (19/10) (19/10) (3/10) (4/10) 1 1)) r ↔ r = .ok S' := by
  refine C121_step_partial (exEnv_chamber ex_div2 0) (Or.inl rfl) (Or.inr rfl) (ids := [7]) (by simp) (exState_alive ex_cross (by rfl)) ?_
    (calm_two (by decide) _)
  intro M1 _ i j hi hj sp hsp o ho junk v ev
  obtain ⟨rfl, rfl, _⟩ := ex_listed hsp ho
  have := neutral (exEnv_chamber ex_div2 0) rfl hi hj ex_cross (id := sp.id) rfl (M1 0 0) junk
  obtain rfl := Res.ok.inj (ev.symm.trans this)
  unfold Clear
  rw [low_zero, low_zero]
  constructor
  · unfold landR
    rw [Nat.cast_zero, zero_mul]
    refine (Real.sqrt_pos.mpr ?_).ne'
    norm_num [exEnv, exPart, exState, vel]
  · norm_num [landZ, exEnv, exPart, exState, vel]

/-- The hypotheses of `C121_handover_partial` with four rows of domains, and a particle that changes its row. -/
example : (∀ i j, (single 0 ⟨2, 5, 2⟩ i j).map Sp.id = [7]) ∧ Apart exEven (single 0 ⟨2, 5, 2⟩) ∧ (domDims exEven 1 1).Owns ⟨2, 5, 2⟩ := by
  refine ⟨fun _ _ => rfl, ?_, by decide⟩
  intro i j i' j' hi hi' hj hj' ne par sp hsp o ho q q1 q2 qo qn
  unfold single at hsp
  rw [List.mem_singleton] at hsp
  subst hsp
  dsimp only at ho
  split at ho
  · next c =>
    rw [List.mem_singleton] at ho
    subst ho
    have e : q = (1, 1) := by
      have := (owns_iff exEven_even _ _ q1 q2 _).1 qo
      exact (Option.some.inj ((by decide : own exEven 2 4 ⟨2, 5, 2⟩ = some (1, 1)).symm.trans this)).symm
    subst e
    refine ⟨by dsimp only; omega, fun sp' h' o' ho' => ?_⟩
    unfold single at h'
    rw [List.mem_singleton] at h'
    subst h'
    dsimp only at ho'
    rw [if_neg (by omega)] at ho'
    exact nomatch ho'
  · exact nomatch ho

/-- A visit may be cut into the exchanges of the single components and directions: what one thread does between two of them is seen by others. -/
example (p : Nat × Nat) (cs : List Yee.Comp) :
    (∀ a ∈ ([Dir.x, .y, .xy].flatMap fun d => cs.map fun c => (d, c)).map (exchComp (K := ℝ) 4 2 p), Only (near p) a) ∧
    ∀ G, seq (([Dir.x, .y, .xy].flatMap fun d => cs.map fun c => (d, c)).map (exchComp (K := ℝ) 4 2 p)) G = visit 4 2 cs p G := by
  refine ⟨fun a ha => ?_, fun G => seq_map _ _ G⟩
  obtain ⟨x, _, rfl⟩ := List.mem_map.1 ha
  exact only_mono (fun _ h => h.1) (only_comp 4 2 p x)

end Threads
end Pico
