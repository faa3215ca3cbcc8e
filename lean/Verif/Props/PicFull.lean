import Verif.Lemmas.PicFull
import Verif.Props.Pic
import Verif.Props.CollidePass
import Verif.Props.Waves

/-!
# C106 — whole runs with external fields and collisions

`FStep F S T` is one pass of the main loop of a build with any choice of external fields and collisions, `FRun F S n T` are `n` passes.
Collisions draw random numbers, so a state can have many successors.
-/

set_option linter.unusedSimpArgs false
set_option linter.unusedVariables false
set_option linter.unusedSectionVars false

namespace Pico
namespace Pic

open SMB Yee

/-! ### External fields are always computed -/

theorem homZ_total (p : Par ℝ) (hr : 1 ≤ p.nr) (hr' : p.nr < 2 ^ 32) (hz : 1 ≤ p.nz) (hz' : p.nz < 2 ^ 32) (cr cp cz : Comp) (a : ℝ) (m : Mem ℝ) :
    ∃ m', Ext.homZ p cr cp cz a m = .ok m' := by
  have el : end_ p.walls.rr p.nr ≤ p.nr := Yee.end_le _ hr hr'
  have el2 : end_ p.walls.zz p.nz ≤ p.nz := Yee.end_le _ hz hz'
  unfold Ext.homZ
  dsimp only
  have s1 : ∃ m', (if p.walls.r0 then loop (fun k m => Ext.setAll p [(cr, 0), (cz, 0)] 0 k m)
      (List.range' (begin_ p.walls.z0) (end_ p.walls.zz p.nz - begin_ p.walls.z0)) m else .ok m) = .ok m' := by
    split
    · obtain ⟨m', e, _⟩ := Ext.loop_set (p := p) (fun k m => Ext.setAll p [(cr, 0), (cz, 0)] 0 k m) (fun _ => 0) id [(cr, 0), (cz, 0)] (fun _ _ => rfl)
        (List.range' (begin_ p.walls.z0) (end_ p.walls.zz p.nz - begin_ p.walls.z0)) (by
        intro k hk
        have := (List.mem_range'_1.mp hk)
        unfold Par.inside
        simp only [id]
        omega) m
      exact ⟨m', e⟩
    · exact ⟨m, rfl⟩
  obtain ⟨m1, e1⟩ := s1
  rw [e1, Res.ok_bind]
  have s2 : ∃ m', (if p.walls.z0 then loop (fun i m => Ext.setAll p [(cz, 0)] i 0 m)
      (List.range' (begin_ p.walls.r0) (end_ p.walls.rr p.nr - begin_ p.walls.r0)) m1 else .ok m1) = .ok m' := by
    split
    · obtain ⟨m', e, _⟩ := Ext.loop_set (p := p) (fun i m => Ext.setAll p [(cz, 0)] i 0 m) id (fun _ => 0) [(cz, 0)] (fun _ _ => rfl)
        (List.range' (begin_ p.walls.r0) (end_ p.walls.rr p.nr - begin_ p.walls.r0)) (by
        intro k hk
        have := (List.mem_range'_1.mp hk)
        unfold Par.inside
        simp only [id]
        omega) m1
      exact ⟨m', e⟩
    · exact ⟨m1, rfl⟩
  obtain ⟨m2, e2⟩ := s2
  rw [e2, Res.ok_bind]
  obtain ⟨m', e, _⟩ := Ext.loop_set (p := p) (fun (q : Nat × Nat) m => Ext.setAll p [(cr, 0), (cp, 0), (cz, a)] q.1 q.2 m)
    Prod.fst Prod.snd [(cr, 0), (cp, 0), (cz, a)] (fun _ _ => rfl)
    (idx2 (begin_ p.walls.r0) (end_ p.walls.rr p.nr) (begin_ p.walls.z0) (end_ p.walls.zz p.nz))
    (by
      rintro ⟨i, k⟩ h
      have := mem_idx2.mp h
      unfold Par.inside
      dsimp only at this ⊢
      omega) m2
  exact ⟨m', e⟩

theorem apply_total (p : Par ℝ) (hr : 1 ≤ p.nr) (hr' : p.nr < 2 ^ 32) (hz : 1 ≤ p.nz) (hz' : p.nz < 2 ^ 32) (o : Ext.Obj ℝ)
    (h : (o.e ≤ 2 ∨ o.e = 4 ∨ o.e = 5 ∨ o.e = 3 ∧ o.ePar ≠ []) ∧ (o.m ≤ 2 ∨ o.m = 4 ∨ o.m = 5 ∨ o.m = 3 ∧ o.mPar ≠ [])) (m : Mem ℝ) :
    ∃ m', Ext.apply p o m = .ok m' := by
  obtain ⟨e, mm, ep, mp⟩ := o
  obtain ⟨he, hm⟩ := h
  dsimp only at he hm
  have fst : ∀ l : List ℝ, l ≠ [] → ∃ a, Ext.first l = .ok a := by
    intro l hl
    cases l with
    | nil => exact absurd rfl hl
    | cons a l => exact ⟨a, rfl⟩
  have second : ∀ m, ∃ m', (match mm with
      | 0 => Res.ok m
      | 1 => .ok m
      | 2 => .ok m
      | 3 => Ext.setMagn p mp m
      | 4 => .ok m
      | 5 => .ok m
      | _ => .fatal) = .ok m' := by
    intro m
    rcases hm with k | k | k | ⟨k, n⟩
    · rcases (show mm = 0 ∨ mm = 1 ∨ mm = 2 by omega) with rfl | rfl | rfl <;> exact ⟨m, rfl⟩
    · subst k; exact ⟨m, rfl⟩
    · subst k; exact ⟨m, rfl⟩
    · subst k
      obtain ⟨a, ea⟩ := fst mp n
      show ∃ m', Ext.setMagn p mp m = .ok m'
      unfold Ext.setMagn
      rw [ea, Res.ok_bind]
      exact homZ_total p hr hr' hz hz' _ _ _ _ _
  unfold Ext.apply
  dsimp only
  rcases he with k | k | k | ⟨k, n⟩
  · rcases (show e = 0 ∨ e = 1 ∨ e = 2 by omega) with rfl | rfl | rfl <;> exact second m
  · subst k; exact second m
  · subst k; exact second m
  · subst k
    obtain ⟨a, ea⟩ := fst ep n
    show ∃ m', (Ext.setEl p ep m >>= _) = .ok m'
    unfold Ext.setEl
    rw [ea, Res.ok_bind]
    obtain ⟨m1, e1⟩ := homZ_total p hr hr' hz hz' .er .ep .ez a (Ext.clear p [.er, .ep, .ez] (Ext.clear p [.fr, .fp, .fz] m))
    rw [e1, Res.ok_bind]
    exact second m1

/-- Every configuration that is accepted works, if `const_z` has its parameter. -/
theorem ext_works {F : Full} {el mag : String} {ep mp : List ℝ} (h : ∀ o, F.ext = some o → Ext.construct el mag ep mp = .ok o)
    (hp : mag = "const_z" → mp ≠ []) : ExtWorks F := by
  intro o ho
  have e := h o ho
  unfold Ext.construct at e
  obtain ⟨a, e1, e⟩ := Res.bind_ok e
  obtain ⟨b, e2, e⟩ := Res.bind_ok e
  injection e with e
  subst e
  dsimp only
  constructor
  · rcases Ext.eProfile_le el with k | k <;> (rw [k] at e1; injection e1 with e1; omega)
  · unfold Ext.mProfile at e2
    split_ifs at e2 with c1 c2 c3 c4 c5 c6 <;> injection e2 with e2 <;> subst e2
    · omega
    · omega
    · omega
    · exact .inr (.inr (.inr ⟨rfl, hp c4⟩))
    · omega
    · omega

/-! ### One step -/

section
variable {F : Full} (B : Built F)
include B

/-- Fields, push and collisions of the next step are defined: builds without collisions or with TA77S. -/
theorem C106_speeds {ids : List Nat} (nd : ids.Nodup) {S : FState} (A : FAlive F ids S) (hx : ExtWorks F)
    (hc : ∀ M P K, F.coll = some (M, P, K) → M = .ta77s) : ∃ M1 X maps H, Speeds F S M1 X maps H := by
  have h := B.chamber
  obtain ⟨m, W⟩ := A.alive.fields
  obtain ⟨M1, m1, e1, W1, keep⟩ := maxwell_ok F.env.p h.div W
  have ex : ∀ i j, ∃ x, i < F.env.domR → j < F.env.domZ → F.applied i j (S.X i j) x := by
    intro i j
    by_cases c : i < F.env.domR ∧ j < F.env.domZ
    · unfold Full.applied
      cases ho : F.ext with
      | none => exact ⟨_, fun _ _ => rfl⟩
      | some o =>
        obtain ⟨⟨b1, b2, _⟩, c1, c2, _⟩ := h.div.bounds c.1 c.2
        have p1 : (domPar F.env.p F.env.domR F.env.domZ i j).nr = hgt F.env.p.nr F.env.domR i := by rw [domPar_eq h.div]; exact winPar_nr ..
        have p2 : (domPar F.env.p F.env.domR F.env.domZ i j).nz = hgt F.env.p.nz F.env.domZ j := by rw [domPar_eq h.div]; exact winPar_nz ..
        have r3 := h.div.r3
        have z3 := h.div.z3
        obtain ⟨x, e⟩ := apply_total (domPar F.env.p F.env.domR F.env.domZ i j) (by omega) (by omega) (by omega) (by omega) o (hx o ho) (S.X i j)
        exact ⟨x, fun _ _ => e⟩
    · exact ⟨S.X i j, fun hi hj => absurd ⟨hi, hj⟩ c⟩
  choose X hX using ex
  have P : ∀ t, ∃ b, ∀ i j, i < F.env.domR → j < F.env.domZ → ∀ sp ∈ S.s.D i j, ∀ o ∈ sp.parts, o.tag = t →
      ∃ v, F.pushed i j (M1 i j) (X i j) sp.id (S.s.heap t) v ∧ b = setVel (S.s.heap t) v := by
    intro t
    by_cases c : ∃ i j, i < F.env.domR ∧ j < F.env.domZ ∧ ∃ sp ∈ S.s.D i j, ∃ o ∈ sp.parts, o.tag = t
    · obtain ⟨i, j, hi, hj, sp, hsp, o, ho, rfl⟩ := c
      obtain ⟨v, p1, p2⟩ := pushed_ok B hi hj (A.alive.place i j hi hj sp hsp o ho) sp.id (M1 i j) (X i j)
      refine ⟨setVel (S.s.heap o.tag) v, ?_⟩
      intro i' j' hi' hj' sp' hsp' o' ho' et
      obtain ⟨rfl, rfl, ei⟩ := once_place A.alive.species A.alive.once hi' hj' hi hj hsp' hsp ho' ho et
      exact ⟨v, by rw [ei]; exact (p1 v).mpr rfl, rfl⟩
    · exact ⟨S.s.heap t, fun i j hi hj sp hsp o ho et => absurd ⟨i, j, hi, hj, sp, hsp, o, ho, et⟩ c⟩
  choose h1 hh using P
  have hh : ∀ i j, i < F.env.domR → j < F.env.domZ → ∀ sp ∈ S.s.D i j, ∀ o ∈ sp.parts,
      ∃ v, F.pushed i j (M1 i j) (X i j) sp.id (S.s.heap o.tag) v ∧ h1 o.tag = setVel (S.s.heap o.tag) v :=
    fun i j hi hj sp hsp o ho => hh o.tag i j hi hj sp hsp o ho rfl
  have col : ∀ i j, ∃ (h' : Nat → Part ℝ) (m' : Coll.Maps), i < F.env.domR → j < F.env.domZ → F.collided i j S.s.D h1 (S.maps i j) h' m' := by
    intro i j
    by_cases c : i < F.env.domR ∧ j < F.env.domZ
    · unfold Full.collided
      cases ho : F.coll with
      | none => exact ⟨_, _, fun _ _ => ⟨rfl, rfl⟩⟩
      | some q =>
        obtain ⟨M, P, K⟩ := q
        obtain rfl := hc M P K ho
        have fil := filled B nd A c.1 c.2 (h1 := h1) fun sp hsp o ho => by
          obtain ⟨v, _, e⟩ := hh i j c.1 c.2 sp hsp o ho; exact ⟨v, e⟩
        obtain ⟨⟨m', els, ions, s⟩, t⟩ := Coll.C102_TA77S (B.physical _ P K ho i j c.1 c.2) fil (A.maps i j c.1 c.2)
        obtain ⟨h', e⟩ := t m' els ions s fun _ => ⟨0, 0, 0, 0, true⟩
        exact ⟨h', m', fun _ _ => ⟨els, ions, _, s, e⟩⟩
    · exact ⟨h1, S.maps i j, fun hi hj => absurd ⟨hi, hj⟩ c⟩
  choose H maps hm using col
  exact ⟨M1, X, maps, H, h1, e1, hX, hh, hm⟩

/-- C106: with builds without collisions or with one of the relativistic methods all particles are slower than light after push and
collisions, for all random numbers. -/
theorem C106_slow {ids : List Nat} (nd : ids.Nodup) {S : FState} (A : FAlive F ids S) (n : NotTA F) : SlowNext F S :=
  fun M1 X maps H q => (speeds B nd A q).2.1 n

/-- C106, one step that has been made: the state after it is sane again, and every species has the same particles. -/
theorem C106_step_partial (hz : Scheme F.env.dist) {ids : List Nat} (nd : ids.Nodup) {S T : FState} (A : FAlive F ids S) (sl : SlowNext F S)
    (cl : ClearNext F S) (st : FStep F S T) : FAlive F ids T ∧ ∀ id ∈ ids, (tagsOf F.env T.s.D id).Perm (tagsOf F.env S.s.D id) := by
  have h := B.chamber
  obtain ⟨M1, H, q, adv, oth, e2, e3⟩ := st
  obtain ⟨q1, _, q3⟩ := speeds B nd A q
  have land : ∀ i j, i < F.env.domR → j < F.env.domZ → ∀ sp ∈ S.s.D i j, ∀ o ∈ sp.parts,
      ∃ v, v.length2 < F.env.c ^ 2 ∧ T.s.heap o.tag = landed F.env (S.s.heap o.tag) v := by
    intro i j hi hj sp hsp o ho
    have a := adv i j hi hj sp hsp o ho
    rw [q1 i j hi hj sp hsp o ho] at a
    have s := sl M1 T.X T.maps H q i j hi hj sp hsp o ho
    exact ⟨_, s, (advance_iff h hi hj (A.alive.place i j hi hj sp hsp o ho) s (cl M1 T.X T.maps H q i j hi hj sp hsp o ho) _).mp a⟩
  obtain ⟨h1, e1, _⟩ := id q
  obtain ⟨D', M', f1, f2, f3, f4⟩ := finish h (scheme_sound hz) nd A.alive land e1
  obtain rfl := Res.ok.inj (f1.symm.trans e2)
  obtain rfl := Res.ok.inj (f2.symm.trans e3)
  refine ⟨⟨f3, ?_, ?_, q3⟩, f4⟩
  · intro a b ha hb sp hsp o ho
    have hid : sp.id ∈ ids := by rw [← f3.species a b]; exact List.mem_map_of_mem hsp
    have t := (f4 sp.id hid).mem_iff.mp (mem_tags.mpr ⟨a, b, ha, hb, sp, hsp, rfl, o, ho, rfl⟩)
    obtain ⟨i', j', hi', hj', sp', hsp', _, o', ho', et⟩ := mem_tags.mp t
    obtain ⟨v, p1, p2⟩ := land i' j' hi' hj' sp' hsp' o' ho'
    have w := A.weight i' j' hi' hj' sp' hsp' o' ho'
    rw [et] at p2 w
    rw [p2]
    exact w
  · have p : (ids.flatMap (tagsOf F.env T.s.D)).Perm (ids.flatMap (tagsOf F.env S.s.D)) := List.Perm.flatMap_left _ fun id hid => f4 id hid
    rw [p.length_eq]
    exact A.few

/-- C106, the next step can be made: whatever push and collisions have made of the velocities, if all particles are slow and clear of the
borders, the step completes. -/
theorem C106_next_partial (hz : Scheme F.env.dist) {ids : List Nat} (nd : ids.Nodup) {S : FState} (A : FAlive F ids S) (sl : SlowNext F S)
    (cl : ClearNext F S) {M1 : Solvers ℝ} {X : Nat → Nat → Mem ℝ} {maps : Nat → Nat → Coll.Maps} {H : Nat → Nat → Nat → Part ℝ}
    (q : Speeds F S M1 X maps H) : ∃ s, FStep F S ⟨s, X, maps⟩ := by
  have h := B.chamber
  obtain ⟨q1, _, q3⟩ := speeds B nd A q
  have P : ∀ t, ∃ b, (∀ i j, i < F.env.domR → j < F.env.domZ → ∀ sp ∈ S.s.D i j, ∀ o ∈ sp.parts, o.tag = t →
      b = landed F.env (S.s.heap t) (vel (H i j t))) ∧
      ((∀ i j, i < F.env.domR → j < F.env.domZ → ∀ sp ∈ S.s.D i j, ∀ o ∈ sp.parts, o.tag ≠ t) → b = S.s.heap t) := by
    intro t
    by_cases c : ∃ i j, i < F.env.domR ∧ j < F.env.domZ ∧ ∃ sp ∈ S.s.D i j, ∃ o ∈ sp.parts, o.tag = t
    · obtain ⟨i, j, hi, hj, sp, hsp, o, ho, rfl⟩ := c
      refine ⟨landed F.env (S.s.heap o.tag) (vel (H i j o.tag)), ?_, fun k => absurd rfl (k i j hi hj sp hsp o ho)⟩
      intro i' j' hi' hj' sp' hsp' o' ho' et
      obtain ⟨rfl, rfl, ei⟩ := once_place A.alive.species A.alive.once hi' hj' hi hj hsp' hsp ho' ho et
      rfl
    · exact ⟨S.s.heap t, fun i j hi hj sp hsp o ho et => absurd ⟨i, j, hi, hj, sp, hsp, o, ho, et⟩ c, fun _ => rfl⟩
  choose heap hp hn using P
  have land : ∀ i j, i < F.env.domR → j < F.env.domZ → ∀ sp ∈ S.s.D i j, ∀ o ∈ sp.parts,
      ∃ v, v.length2 < F.env.c ^ 2 ∧ heap o.tag = landed F.env (S.s.heap o.tag) v := by
    intro i j hi hj sp hsp o ho
    exact ⟨_, sl M1 X maps H q i j hi hj sp hsp o ho, hp o.tag i j hi hj sp hsp o ho rfl⟩
  obtain ⟨h1, e1, _⟩ := id q
  obtain ⟨D', M', f1, f2, f3, f4⟩ := finish h (scheme_sound hz) nd A.alive land e1
  refine ⟨⟨M', heap, D'⟩, M1, H, q, ?_, fun a k => hn a k, f1, f2⟩
  intro i j hi hj sp hsp o ho
  rw [q1 i j hi hj sp hsp o ho]
  refine (advance_iff h hi hj (A.alive.place i j hi hj sp hsp o ho) (sl M1 X maps H q i j hi hj sp hsp o ho) (cl M1 X maps H q i j hi hj sp hsp o ho) _).mpr ?_
  exact hp o.tag i j hi hj sp hsp o ho rfl

/-- In an undivided chamber no particle arrives exactly at a border, if light travels at most half a cell per step. -/
theorem clear_single (h1 : F.env.domR = 1) (h2 : F.env.domZ = 1) (hc : HalfCell F.env) {ids : List Nat} {S : FState} (A : FAlive F ids S)
    (sl : SlowNext F S) : ClearNext F S := by
  intro M1 X maps H q i j hi hj sp hsp o ho
  have ha := A.alive.place i j hi hj sp hsp o ho
  have p2 : (vel (H i j o.tag)).length2 < F.env.c ^ 2 := sl M1 X maps H q i j hi hj sp hsp o ho
  have h := B.chamber
  have dt : 0 < F.env.p.dt := h.good.dt
  have ct : 0 < F.env.c * F.env.p.dt := mul_pos h.c dt
  show Clear F.env i j (S.s.heap o.tag) (vel (H i j o.tag))
  generalize vel (H i j o.tag) = v' at p2 ⊢
  generalize S.s.heap o.tag = a at ha ⊢
  have sq : (v'.x * F.env.p.dt) ^ 2 + (v'.y * F.env.p.dt) ^ 2 + (v'.z * F.env.p.dt) ^ 2 < (F.env.c * F.env.p.dt) ^ 2 := by
    unfold Vec3.length2 at p2
    have := mul_lt_mul_of_pos_right p2 (pow_pos dt 2)
    nlinarith
  have i0 : i = 0 := by omega
  have j0 : j = 0 := by omega
  subst i0 j0
  have q1 := ha.r1
  have q2 := ha.z1
  unfold Clear
  rw [low_zero, low_zero, Nat.cast_zero, zero_mul, zero_mul]
  constructor
  · have := radius_change (r := a.posR) (u := v'.x * F.env.p.dt) (v := v'.y * F.env.p.dt) (by linarith [hc.1]) ct.le
      (by nlinarith [sq_nonneg (v'.z * F.env.p.dt)])
    rw [abs_lt] at this
    unfold landR
    rw [ha.phi, zero_add]
    intro e
    rw [e] at this
    linarith [hc.1]
  · have := abs_lt_of_sq_lt_sq (show (v'.z * F.env.p.dt) ^ 2 < (F.env.c * F.env.p.dt) ^ 2 by
      nlinarith [sq_nonneg (v'.x * F.env.p.dt), sq_nonneg (v'.y * F.env.p.dt)]) ct.le
    rw [abs_lt] at this
    unfold landZ
    intro e
    linarith [hc.2]

/-! ### Runs -/

/-- C106, any number of steps, all builds: as long as particles stay slow and clear of borders, every state of every run is sane, and no
particle is lost, doubled or changes its species. -/
theorem C106_run_partial (hz : Scheme F.env.dist) {ids : List Nat} (nd : ids.Nodup) {S : FState} (A : FAlive F ids S) {n : Nat}
    (ok : ∀ k T, k < n → FRun F S k T → FAlive F ids T → SlowNext F T ∧ ClearNext F T) {T : FState} (r : FRun F S n T) :
    FAlive F ids T ∧ ∀ id ∈ ids, (tagsOf F.env T.s.D id).Perm (tagsOf F.env S.s.D id) := by
  induction n generalizing T with
  | zero =>
    cases r
    exact ⟨A, fun _ _ => .refl _⟩
  | succ n ih =>
    cases r with
    | step ra rb =>
      obtain ⟨A1, p1⟩ := ih (fun k T hk r => ok k T (by omega) r) ra
      obtain ⟨a, b⟩ := ok n _ (by omega) ra A1
      obtain ⟨A2, p2⟩ := C106_step_partial B hz nd A1 a b rb
      exact ⟨A2, fun id hid => (p2 id hid).trans (p1 id hid)⟩

/-- **C106** for an undivided chamber in which light travels at most half a cell per step, with external fields and without collisions or
with one of the relativistic methods: every state of every run, for all random numbers and any number of steps, is sane: all particles
between the walls, slower than light, in their cells; none lost, doubled or in another species. -/
theorem C106_single (hz : Scheme F.env.dist) (nta : NotTA F) (h1 : F.env.domR = 1) (h2 : F.env.domZ = 1) (hc : HalfCell F.env) {ids : List Nat}
    (nd : ids.Nodup) {S : FState} (A : FAlive F ids S) (n : Nat) {T : FState} (r : FRun F S n T) :
    FAlive F ids T ∧ ∀ id ∈ ids, (tagsOf F.env T.s.D id).Perm (tagsOf F.env S.s.D id) := by
  refine C106_run_partial B hz nd A (fun k T _ _ A' => ?_) r
  have s := C106_slow B nd A' nta
  exact ⟨s, clear_single B h1 h2 hc A' s⟩

/-- C106: without collisions such a run goes on for as many steps as wanted, whatever the external fields are. -/
theorem C106_external (hz : Scheme F.env.dist) (hn : F.coll = none) (hx : ExtWorks F) (h1 : F.env.domR = 1) (h2 : F.env.domZ = 1) (hc : HalfCell F.env)
    {ids : List Nat} (nd : ids.Nodup) {S : FState} (A : FAlive F ids S) (n : Nat) : ∃ T, FRun F S n T := by
  have nta : NotTA F := fun P K k => by rw [hn] at k; cases k
  induction n with
  | zero => exact ⟨S, .start⟩
  | succ n ih =>
    obtain ⟨T, r⟩ := ih
    have A' := (C106_single B hz nta h1 h2 hc nd A n r).1
    have s := C106_slow B nd A' nta
    obtain ⟨M1, X, maps, H, q⟩ := C106_speeds B nd A' hx (fun M P K k => by rw [hn] at k; cases k)
    obtain ⟨U, st⟩ := C106_next_partial B hz nd A' s (clear_single B h1 h2 hc A' s) q
    exact ⟨_, .step r st⟩

end

/-! ### Faster than light -/

/-- Moving, reflecting and turning keep the speed, also of particles faster than light. -/
theorem advance_speed {dt : ℝ} {g : Geom ℝ} {w : Part.Walls} {a b : Part ℝ} (h : Part.Advance dt g w a b) : (vel b).length2 = (vel a).length2 := by
  obtain ⟨p, q, e1, e2, e3⟩ := h
  have ene := (Part.C74_energy e2).2.2.2
  obtain ⟨s, _, rfl⟩ := e2
  unfold Part.backPos at e1
  dsimp only at e1
  split_ifs at e1 with c
  injection e1 with e1
  have sin1 : 0 ≤ 1 - p.sin * p.sin := by
    rw [← e1]
    dsimp only
    generalize (a.dumpOld.move dt) = u at c
    have n : 0 ≤ u.posR * u.posR + u.posPhi * u.posPhi := by nlinarith [mul_self_nonneg u.posR, mul_self_nonneg u.posPhi]
    have sq := Real.sq_sqrt n
    have pos : 0 < Real.sqrt (u.posR * u.posR + u.posPhi * u.posPhi) := lt_of_le_of_ne (Real.sqrt_nonneg _) (Ne.symm c)
    generalize Real.sqrt (u.posR * u.posR + u.posPhi * u.posPhi) = r at *
    rw [sub_nonneg, ← pow_two, div_pow, div_le_one (by positivity), sq]
    nlinarith [mul_self_nonneg u.posR]
  have v1 : p.velR = a.velR ∧ p.velPhi = a.velPhi ∧ p.velZ = a.velZ := by rw [← e1]; exact ⟨rfl, rfl, rfl⟩
  obtain ⟨x, _, e3⟩ := Res.bind_ok e3
  obtain ⟨y, _, e3⟩ := Res.bind_ok e3
  injection e3 with e3
  rw [← e3]
  have c2 := Real.sq_sqrt sin1
  unfold vel Vec3.length2 Part.backVel
  dsimp only at ene ⊢
  rw [v1.1, v1.2.1, v1.2.2] at ene
  rw [v1.2.1]
  generalize Real.sqrt (1 - p.sin * p.sin) = k at *
  linear_combination ene + (s.vr ^ 2 + a.velPhi ^ 2) * c2

/-- The pushers end the run if a particle is faster than light. -/
theorem push_fast {kind : Pusher.Kind} (hk : Pusher.Relativistic kind) {P : Pusher.Par} (hc : 0 < P.c) {junk : Bool} {e b v : Vec3 ℝ} (hv : P.c ^ 2 < v.length2) :
    Pusher.pushV kind P junk e b v = .fatal := by
  have l : Rel.lorenzFactor P.c v.length2 = .fatal := by
    unfold Rel.lorenzFactor
    dsimp only
    rw [if_pos]
    rw [gt_iff_lt, lt_div_iff₀ (mul_pos hc hc)]
    linarith [pow_two P.c]
  rcases hk with rfl | rfl | rfl
  · show Pusher.borisRel _ _ _ _ = _
    unfold Pusher.borisRel
    rw [l]; rfl
  · show Pusher.vay _ _ _ _ = _
    unfold Pusher.vay
    rw [l]; rfl
  · show Pusher.hc _ _ _ _ = _
    unfold Pusher.hc
    rw [l]; rfl

theorem bound_listed {h : Nat → Part ℝ} {ion : Bool} {sp : List Coll.Species} {r z t : Nat} (m : t ∈ Coll.boundTo h ion sp r z) :
    ∃ s ∈ sp, t ∈ s.particles := by
  unfold Coll.boundTo at m
  obtain ⟨s, hs, ht⟩ := List.mem_flatMap.mp (List.mem_filter.mp m).1
  exact ⟨s, (List.mem_filter.mp hs).1, ht⟩

/-- A state with a particle that is faster than light has no next state. -/
theorem C106_light_fails {F : Full} (B : Built F) {S T : FState} {i j : Nat} (hi : i < F.env.domR) (hj : j < F.env.domZ) {sp : Sp} (hsp : sp ∈ S.s.D i j)
    {o : Prt} (ho : o ∈ sp.parts) (hv : F.env.c ^ 2 < (vel (S.s.heap o.tag)).length2) : ¬ FStep F S T := by
  rintro ⟨M1, H, ⟨h1, _, _, hp, _⟩, _⟩
  obtain ⟨v, ⟨junk, e⟩, _⟩ := hp i j hi hj sp hsp o ho
  have fast : ∀ e b, Pusher.pushV F.env.kind (F.env.pushPar sp.id) junk e b (vel (S.s.heap o.tag)) = .fatal := fun e b =>
    push_fast B.pusher B.chamber.c hv
  cases hx : F.ext with
  | none =>
    rw [hx] at e
    dsimp only at e
    unfold Pusher.push at e
    obtain ⟨x, _, e⟩ := Res.bind_ok e
    obtain ⟨y, _, e⟩ := Res.bind_ok e
    rw [fast] at e
    cases e
  | some q =>
    rw [hx] at e
    dsimp only at e
    unfold pushExt at e
    obtain ⟨x, _, e⟩ := Res.bind_ok e
    obtain ⟨y, _, e⟩ := Res.bind_ok e
    obtain ⟨x', _, e⟩ := Res.bind_ok e
    obtain ⟨y', _, e⟩ := Res.bind_ok e
    rw [fast] at e
    cases e

/-- **C106 fails for TA77S** (undivided chamber): an electron and an ion of the same weight in the first cell, no other ions; if after the push they
approach each other along the axis with more than half the velocity of light (`M1`, `X`, `h1` are fields and particles after the push), there are
random numbers for which the run ends with an error in the next step. -/
theorem C106_TA77S_fails {F : Full} (B : Built F) (s1 : F.env.domR = 1) (s2 : F.env.domZ = 1) {ids : List Nat} (nd : ids.Nodup) {S : FState} (A : FAlive F ids S)
    {P : Coll.Phys} {K : Coll.Kinds} (hcoll : F.coll = some (.ta77s, P, K)) {M1 : Solvers ℝ} {X : Nat → Nat → Mem ℝ} {h1 : Nat → Part ℝ}
    (e1 : solveMaxwell (domPar F.env.p F.env.domR F.env.domZ) F.env.domR F.env.domZ S.s.M = .ok M1)
    (ex : ∀ i j, i < F.env.domR → j < F.env.domZ → F.applied i j (S.X i j) (X i j))
    (ep : ∀ i j, i < F.env.domR → j < F.env.domZ → ∀ sp ∈ S.s.D i j, ∀ o ∈ sp.parts,
      ∃ v, F.pushed i j (M1 i j) (X i j) sp.id (S.s.heap o.tag) v ∧ h1 o.tag = setVel (S.s.heap o.tag) v)
    {a b : Nat} (ha : Coll.boundTo h1 false (F.species S.s.D 0 0) 0 0 = [a]) (hb : Coll.boundTo h1 true (F.species S.s.D 0 0) 0 0 = [b])
    (ho : ∀ i j, i < F.env.p.nr → j < F.env.p.nz → ¬ (i = 0 ∧ j = 0) → Coll.boundTo h1 true (F.species S.s.D 0 0) i j = [])
    (hw : (h1 a).weight = (h1 b).weight) {v : ℝ} (hva : vel (h1 a) = ⟨0, 0, -v⟩) (hvb : vel (h1 b) = ⟨0, 0, v⟩) (hv : F.env.c < 2 * v)
    (hm : K.massEl ≤ K.massIon) :
    ∃ maps H, Speeds F S M1 X maps H ∧ ∀ T, Finishes F S M1 H T → a ∈ (F.species T.s.D 0 0).flatMap (·.particles) → ∀ U, ¬ FStep F T U := by
  have h := B.chamber
  have hi : 0 < F.env.domR := by omega
  have hj : 0 < F.env.domZ := by omega
  have ph := B.physical _ P K hcoll 0 0 hi hj
  have hc : P.k.c = F.env.c := B.light _ P K hcoll
  have fil := filled B nd A hi hj (h1 := h1) fun sp hsp o ho => by
    obtain ⟨v, _, e⟩ := ep 0 0 hi hj sp hsp o ho; exact ⟨v, e⟩
  have g0 := geom_eq h 0 0
  have low0 : ∀ n d, low n d 0 = 0 := fun n d => by unfold low; simp
  have pr : (F.place 0 0).r0 = 0 ∧ (F.place 0 0).z0 = 0 ∧ (F.place 0 0).nr = F.env.p.nr ∧ (F.place 0 0).nz = F.env.p.nz := by
    unfold Full.place
    rw [g0]
    dsimp only
    rw [s1, s2, low0, low0]
    unfold hgt low
    simp
  obtain ⟨p1, p2, p3, p4⟩ := pr
  have n1 := h.div.sizes
  obtain ⟨x, cc⟩ := Coll.C105_fails ph fil (by omega) (by omega) (a := a) (b := b) (by rw [p1, p2]; exact ha) (by rw [p1, p2]; exact hb)
    (fun i j hi' hj' k => by rw [p1, p2, zero_add, zero_add]; exact ho i j (by omega) (by omega) k) hw hva hvb (by rw [hc]; exact h.c) (by rw [hc]; exact hv) hm
  obtain ⟨h', e, fast⟩ := cc (fun _ => ⟨x, 0, 0, 0, true⟩) (le_refl _)
  obtain ⟨m', so⟩ := Coll.sorted_exists ⟨ph.rows, ph.cols⟩ fil.bound (A.maps 0 0 hi hj)
  refine ⟨fun _ _ => m', fun _ _ => h', ⟨h1, e1, ex, ep, ?_⟩, ?_⟩
  · intro i j hi' hj'
    obtain rfl : i = 0 := by omega
    obtain rfl : j = 0 := by omega
    unfold Full.collided
    rw [hcoll]
    exact ⟨_, _, _, so, e⟩
  · intro T fin mem U
    obtain ⟨s, hs, ht⟩ := List.mem_flatMap.mp mem
    obtain ⟨sp, hsp, rfl⟩ := List.mem_map.mp hs
    obtain ⟨o, ho', et⟩ := List.mem_map.mp ht
    refine C106_light_fails B hi hj hsp ho' ?_
    rw [et]
    have ma : a ∈ Coll.boundTo h1 false (F.species S.s.D 0 0) 0 0 := by rw [ha]; exact List.mem_singleton.mpr rfl
    obtain ⟨s', hs', ta⟩ := bound_listed ma
    obtain ⟨sp', hsp', rfl⟩ := List.mem_map.mp hs'
    obtain ⟨o', ho'', rfl⟩ := List.mem_map.mp ta
    have ad := fin.1 0 0 hi hj sp' hsp' o' ho''
    rw [advance_speed ad, ← hc]
    exact fast

/-! ### Non-vacuity -/

/-- In a memory without fields the pushers keep the velocity. -/
theorem still {E : Env} (h : Chamber E) (hk : E.kind = .borisRelativistic) {i j : Nat} (hi : i < E.domR) (hj : j < E.domZ)
    {a : Part ℝ} (ha : InPlace E i j a) (id : Nat) {m : Mem ℝ} (hm : ∀ (c : Comp) (x y : Int), c.isSource = false → (-2 ≤ x ∧ x < hgt E.p.nr E.domR i + 2) →
      (-2 ≤ y ∧ y < hgt E.p.nz E.domZ j + 2) → m c x y = 0) (junk : Bool) :
    Pusher.push E.kind (E.pushPar id) junk E.e.pi (E.geom i j) m a.posR a.posZ (vel a) = .ok (vel a) := by
  have e : (E.geom i j).dr / 2 ≤ a.posR := by
    rw [geom_eq h]
    exact ha.r1
  have c1 := Interp.C23_electric_partial h.good.pi (geom_good h hi hj) ha.dom e m
  have c2 := Interp.C23_magnetic h.good.pi (geom_good h hi hj) ha.dom e m
  have sn : ∀ α β c, c.isSource = false → Interp.seen (E.geom i j) α β (m c) a.posR a.posZ = 0 := by
    intro α β c hc
    unfold Interp.seen
    apply Finset.sum_eq_zero
    intro x hx
    apply Finset.sum_eq_zero
    intro y hy
    rw [geom_eq h] at hx hy
    have hx := Finset.mem_Icc.mp hx
    have hy := Finset.mem_Icc.mp hy
    dsimp only at hx hy
    rw [hm c x y hc (by omega) (by omega), mul_zero]
  dsimp only at c1
  have c1 : Interp.getE E.e.pi (E.geom i j) m a.posR a.posZ = _ := c1
  have c2 : Interp.getH E.e.pi (E.geom i j) m a.posR a.posZ = _ := c2
  have d := ha.dom
  have g := geom_eq h i j
  have dr : 0 < E.p.dr := by have := (geom_good h hi hj).dr; rwa [g] at this
  have dz : 0 < E.p.dz := by have := (geom_good h hi hj).dz; rwa [g] at this
  rw [sn _ _ _ rfl, sn _ _ _ rfl, sn _ _ _ rfl] at c2
  have l : m .ep (⌊a.posR / (E.geom i j).dr⌋ - (E.geom i j).r0 + 1) (⌊a.posZ / (E.geom i j).dz⌋ - (E.geom i j).z0 + 1) = 0 := by
    rw [g] at d ⊢
    obtain ⟨d1, d2, d3, d4⟩ := d
    dsimp only at d1 d2 d3 d4 ⊢
    push_cast at d1 d2 d3 d4
    have a1 : (low E.p.nr E.domR i : Int) ≤ ⌊a.posR / E.p.dr⌋ := by
      rw [Int.le_floor, le_div_iff₀ dr]; push_cast; linarith
    have a2 : ⌊a.posR / E.p.dr⌋ < (low E.p.nr E.domR i : Int) + hgt E.p.nr E.domR i := by
      rw [Int.floor_lt, div_lt_iff₀ dr]; push_cast; linarith
    have a3 : (low E.p.nz E.domZ j : Int) ≤ ⌊a.posZ / E.p.dz⌋ := by
      rw [Int.le_floor, le_div_iff₀ dz]; push_cast; linarith
    have a4 : ⌊a.posZ / E.p.dz⌋ < (low E.p.nz E.domZ j : Int) + hgt E.p.nz E.domZ j := by
      rw [Int.floor_lt, div_lt_iff₀ dz]; push_cast; linarith
    exact hm _ _ _ rfl (by omega) (by omega)
  rw [sn _ _ _ rfl, sn _ _ _ rfl, sn _ _ _ rfl, l, mul_zero, sub_zero, add_zero] at c1
  unfold Pusher.push
  rw [c1, Res.ok_bind, c2, Res.ok_bind, hk]
  show Pusher.borisRel _ _ _ _ = _
  obtain ⟨γ, eg, hg, hγ, R⟩ := Pusher.boris_eq (E.pushPar id) h.c ⟨0, 0, 0⟩ ⟨0, 0, 0⟩ (vel a) ha.slow
  have s0 : ∀ k : ℝ, (⟨0, 0, 0⟩ : Vec3 ℝ).smul k = Vec3.zero := fun k => by simp [Vec3.smul, Vec3.zero]
  dsimp only at R
  rw [R]
  simp only [s0, Pusher.add_zero', Pusher.smul_zero', Pusher.rotate_zero]
  rw [Rel.len2_smul,
    Rel.smul_smul', mul_comm γ, Rel.inv_of_lorenz (c := (E.pushPar id).c) h.c (Rel.len2_nonneg _) hg hγ, Rel.smul_one']

namespace Pair

/-- The undivided chamber of `exEnv` with electrons (7) and ions (8). -/
noncomputable def env : Env := { exEnv 1 1 0 with charge := fun id => if id = 8 then 1 else -1, mass := fun id => if id = 8 then 2000 else 1 }

noncomputable def full (ext : Option (Ext.Obj ℝ)) (M : Option Coll.Method) : Full :=
  ⟨env, ext, M.map fun M => (M, ⟨⟨3, 1, 1, 1, 1, 1, 1⟩, 1, 1/2⟩, ⟨1, 2000, -1, 1⟩), fun id => if id = 8 then "ions" else "electrons"⟩

/-- An electron and an ion in the first cell, flying towards each other. -/
noncomputable def part (v : ℝ) (id : Nat) : Part ℝ := ⟨3/4, 0, 3/4, 3/4, 0, 3/4, 0, 0, v, 1, 0, 0, 0, 0, id⟩
noncomputable def state : FState where
  s := ⟨fun _ _ => exMedium, fun t => if t = 0 then part (-(4/5)) 7 else part (4/5) 8,
    fun i j => [⟨7, if i = 0 ∧ j = 0 then [⟨0, 0, 0⟩] else []⟩, ⟨8, if i = 0 ∧ j = 0 then [⟨0, 0, 1⟩] else []⟩]⟩
  X := fun _ _ _ _ _ => 0
  maps := fun _ _ => Coll.newMaps 4 4

theorem chamber : Chamber env where
  r0 := rfl
  walls := rfl
  div := ex_div1
  good := by refine ⟨⟨?_, ?_, ?_, ?_⟩, ?_, ?_, ?_⟩ <;> norm_num [ctxOf, env, exEnv]
  c := by norm_num [env, exEnv]
  cr := by norm_num [env, exEnv]
  cz := by norm_num [env, exEnv]
  mass := fun id => by
    show 0 < (if id = 8 then (2000 : ℝ) else 1)
    split_ifs <;> norm_num

theorem geom0 : env.geom 0 0 = ⟨1, 1, 0, 0, 4, 4⟩ := by
  rw [geom_eq chamber]
  norm_num [env, exEnv, low, hgt]

theorem built (ext : Option (Ext.Obj ℝ)) (M : Option Coll.Method) : Built (full ext M) where
  chamber := chamber
  pusher := .inl rfl
  small := by norm_num [full, env, exEnv]
  light := by
    intro M' P K h
    cases M with
    | none => cases h
    | some M =>
      injection h with h
      injection h with _ h
      injection h with h _
      subst h
      rfl
  physical := by
    intro M' P K h i j hi hj
    obtain rfl : i = 0 := by have : i < 1 := hi; omega
    obtain rfl : j = 0 := by have : j < 1 := hj; omega
    cases M with
    | none => cases h
    | some M =>
      injection h with h
      injection h with _ h
      injection h with h1 h2
      subst h1 h2
      have g : (full ext (some M)).place 0 0 = ⟨1, 1, 0, 0, 4, 4⟩ := by
        show (⟨(env.geom 0 0).dr, (env.geom 0 0).dz, (env.geom 0 0).r0, (env.geom 0 0).z0, (env.geom 0 0).nr, (env.geom 0 0).nz⟩ : Coll.Place) = _
        rw [geom0]
      rw [g]
      constructor <;> norm_num

theorem listed {i j : Nat} {sp : Sp} (hsp : sp ∈ state.s.D i j) {o : Prt} (ho : o ∈ sp.parts) :
    (i = 0 ∧ j = 0) ∧ (sp.id = 7 ∧ o.tag = 0 ∨ sp.id = 8 ∧ o.tag = 1) := by
  have hsp : sp ∈ [(⟨7, if i = 0 ∧ j = 0 then [⟨0, 0, 0⟩] else []⟩ : Sp), ⟨8, if i = 0 ∧ j = 0 then [⟨0, 0, 1⟩] else []⟩] := hsp
  by_cases c : i = 0 ∧ j = 0
  · rw [if_pos c, if_pos c] at hsp
    refine ⟨c, ?_⟩
    rcases List.mem_cons.mp hsp with rfl | hsp
    · obtain rfl := List.mem_singleton.mp ho
      exact .inl ⟨rfl, rfl⟩
    · obtain rfl := List.mem_singleton.mp hsp
      obtain rfl := List.mem_singleton.mp ho
      exact .inr ⟨rfl, rfl⟩
  · rw [if_neg c, if_neg c] at hsp
    rcases List.mem_cons.mp hsp with rfl | hsp
    · cases ho
    · obtain rfl := List.mem_singleton.mp hsp
      cases ho

theorem in_place (v : ℝ) (hv : v ^ 2 < 1) (id : Nat) : InPlace env 0 0 (part v id) := by
  refine ⟨rfl, ?_, ?_, ?_, ?_, ?_, ?_, ?_, ?_⟩
  · rw [geom0]
    constructor <;> norm_num [part]
  all_goals norm_num [env, exEnv, part, vel, Vec3.length2, Int.floor_eq_iff]
  nlinarith

theorem heap_place (t : Nat) : InPlace env 0 0 (state.s.heap t) := by
  show InPlace env 0 0 (if t = 0 then part (-(4/5)) 7 else part (4/5) 8)
  split_ifs
  · exact in_place _ (by norm_num) _
  · exact in_place _ (by norm_num) _

theorem alive (ext : Option (Ext.Obj ℝ)) (M : Option Coll.Method) : FAlive (full ext M) [7, 8] state where
  alive := {
    species := fun _ _ => rfl
    once := by
      show ([7, 8].flatMap (tagsOf env state.s.D)).Nodup
      rw [show [7, 8].flatMap (tagsOf env state.s.D) = [0, 1] from rfl]
      decide
    place := by
      intro i j _ _ sp hsp o ho
      obtain ⟨⟨rfl, rfl⟩, _⟩ := listed hsp ho
      exact heap_place _
    fields := ⟨exMedium, fun c hc i j x y _ => ⟨fun _ => rfl, fun _ => if_neg (fun k => by rw [k] at hc; exact (nomatch hc))⟩⟩ }
  weight := by
    intro i j _ _ sp hsp o ho
    show 0 < (if o.tag = 0 then part (-(4/5)) 7 else part (4/5) 8).weight
    split_ifs <;> norm_num [part]
  few := by
    show ([7, 8].flatMap (tagsOf env state.s.D)).length < 2 ^ 24
    rw [show [7, 8].flatMap (tagsOf env state.s.D) = [0, 1] from rfl]
    norm_num
  maps := by
    intro i j hi hj
    obtain rfl : i = 0 := by have : i < 1 := hi; omega
    obtain rfl : j = 0 := by have : j < 1 := hj; omega
    show Coll.Maps.Shape (env.geom 0 0).nr (env.geom 0 0).nz _
    rw [geom0]
    exact ⟨⟨rfl, rfl, rfl⟩, rfl, rfl, rfl⟩

theorem half : HalfCell env := by unfold HalfCell env exEnv; norm_num

/-- Any relativistic collisions and an external magnetic field: all states of all runs are sane. -/
example (n : Nat) (T : FState) (r : FRun (full (some ⟨1, 3, [], [5]⟩) (some .p12)) state n T) : FAlive (full (some ⟨1, 3, [], [5]⟩) (some .p12)) [7, 8] T :=
  (C106_single (built _ _) (.inr rfl) (fun P K k => by injection k with k; injection k with k; cases k) rfl rfl half (by decide) (alive _ _) n r).1

/-- With an external magnetic field and no collisions the run goes on. -/
example (n : Nat) : ∃ T, FRun (full (some ⟨1, 3, [], [5]⟩) none) state n T :=
  C106_external (built _ _) (.inr rfl) rfl (ext_works (el := "none") (mag := "const_z") (ep := []) (mp := [5]) (fun o h => by injection h with h; subst h; rfl) (by simp))
    rfl rfl half (by decide) (alive _ _) n

/-- The first step can be made with TA77S; it may end the run in the second step. -/
example : ∃ M1 X maps H, Speeds (full none (some .ta77s)) state M1 X maps H ∧
    ∀ T, Finishes (full none (some .ta77s)) state M1 H T → 0 ∈ ((full none (some .ta77s)).species T.s.D 0 0).flatMap (·.particles) →
      ∀ U, ¬ FStep (full none (some .ta77s)) T U := by
  have A := alive none (some .ta77s)
  obtain ⟨M1, m1, e1, em, W1, _⟩ := C62_step env.p chamber.div (M := state.s.M) (m := exMedium) (fun c hc i j x y _ => ⟨fun _ => rfl,
    fun _ => if_neg (fun k => by rw [k] at hc; exact (nomatch hc))⟩) (loc := fun _ _ => exMedium) (src := exMedium) (fun _ _ _ _ _ _ _ => rfl)
  have se : setSources exMedium exMedium = exMedium := by
    funext c x y
    exact ite_self _
  have e1 : solveMaxwell (domPar env.p env.domR env.domZ) env.domR env.domZ state.s.M = .ok M1 := by
    rw [← e1]
    congr 1
    funext i j
    exact se.symm
  have zero : ∀ (c : Comp) (x y : Int), c.isSource = false → (-2 ≤ x ∧ x < hgt env.p.nr env.domR 0 + 2) → (-2 ≤ y ∧ y < hgt env.p.nz env.domZ 0 + 2) → M1 0 0 c x y = 0 := by
    intro c x y hc hx hy
    obtain ⟨s1, s2, s3, s4⟩ := chamber.div.sizes
    rw [se] at em
    obtain ⟨m0, f1, f2⟩ := Res.bind_ok em
    have z : ∀ (c : Comp) x y, c ≠ .eps → exMedium c x y = 0 := fun c x y k => if_neg k
    have mix : Mix env.p 0 0 exMedium exMedium exMedium := ⟨fun _ _ _ _ _ => ⟨rfl, rfl⟩, fun c x y hc _ => by
        rw [z c x y (by rintro rfl; cases hc)]; ring,
      fun c x y hc _ => by rw [z c x y (by rintro rfl; cases hc)]; ring⟩
    have fin := (mix_H s1 (mix_E s1 s2 s3 s4 mix f1 f1 f1) f2 f2 f2).field
    have w := W1 c hc 0 0 x y ⟨Nat.one_pos, Nat.one_pos, hx, hy⟩
    by_cases sm : Seam env.p env.domR env.domZ 0 0 x y
    · exact w.2 sm
    · rw [w.1 sm, fin c _ _ hc ?_]
      · ring
      · have l0 : low env.p.nr env.domR 0 = 0 ∧ low env.p.nz env.domZ 0 = 0 := ⟨rfl, rfl⟩
        have h0 : hgt env.p.nr env.domR 0 = env.p.nr ∧ hgt env.p.nz env.domZ 0 = env.p.nz := ⟨rfl, rfl⟩
        unfold Par.inside
        omega
  have keep : ∀ t id, (full none (some .ta77s)).pushed 0 0 (M1 0 0) (state.X 0 0) id (state.s.heap t) (vel (state.s.heap t)) := fun t id =>
    ⟨true, still chamber rfl Nat.one_pos Nat.one_pos (heap_place t) id zero true⟩
  obtain ⟨maps, H, q, f⟩ := C106_TA77S_fails (built none (some .ta77s)) rfl rfl (by decide) A rfl e1 (X := state.X) (h1 := state.s.heap) (fun _ _ _ _ => rfl)
    (fun i j _ _ sp hsp o ho => by
      obtain ⟨⟨rfl, rfl⟩, _⟩ := listed hsp ho
      exact ⟨_, keep o.tag sp.id, rfl⟩) (a := 0) (b := 1) (v := 4/5) rfl rfl (by
      intro i j _ _ k
      have : ((0 == i) && (0 == j)) = false := by
        rcases Nat.eq_zero_or_pos i with rfl | c
        · have : j ≠ 0 := fun h => k ⟨rfl, h⟩
          simpa using fun h => this h.symm
        · have : i ≠ 0 := by omega
          simp [Ne.symm this]
      show [1].filter (fun t => (0 == i) && (0 == j)) = []
      rw [this]
      rfl) rfl rfl rfl (by norm_num [full, env, exEnv]) (by norm_num)
  exact ⟨M1, _, maps, H, q, f⟩

end Pair

end Pic
end Pico
