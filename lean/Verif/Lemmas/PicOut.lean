import Verif.Spec.PicOut
import Verif.Lemmas.PicLaws
import Verif.Props.Probe
import Verif.Props.Output
import Verif.Props.Dump

/-! Output attached to a run: how the datasets grow. -/

set_option linter.unusedSimpArgs false
set_option linter.unusedVariables false
set_option linter.unusedSectionVars false

namespace Pico
namespace Pic

open SMB Yee

/-! ### Schedules -/

theorem frame_due {s : Nat} (h : 1 ≤ s) (n : Nat) : Out.frame s (n : Int) = .ok (if n % s = 0 then some (n / s) else none) := by
  unfold Out.frame
  rw [if_neg (by omega)]
  simp

/-- Probe `k` is due at step `n`. -/
def Due (O : OEnv) (n k : Nat) : Prop := n % (O.probes k).schedule = 0

instance (O : OEnv) (n k : Nat) : Decidable (Due O n k) := by unfold Due; infer_instance

/-- The probe as the preparation sees it. -/
def OProbe.prep (p : OProbe) : Dump.Probe := ⟨prepComp p.component, p.specie⟩

/-- The probes due at step `n`, in order. -/
def dueOf (O : OEnv) (n : Nat) (l : List Nat) : List Dump.Probe := (l.filter fun k => decide (Due O n k)).map fun k => (O.probes k).prep

theorem extend_twice (d : Dataset ℝ) (n : Nat) : (d.extend n).extend n = d.extend n := by
  unfold Dataset.extend
  by_cases c : d.rows > n
  · simp only [if_pos c]
  · simp only [if_neg c]
    rw [if_pos (Nat.lt_succ_self n)]

/-- The preparation as a whole. -/
theorem prepare_loop (O : OEnv) (S : State) (n : Nat) (l : List Nat) (hs : ∀ k ∈ l, 1 ≤ (O.probes k).schedule) (F : Files)
    {maps : Nat → Dump.SMaps} (e : Dump.prepare (worldOf O S) (dueOf O n l) F.maps = .ok maps) :
    loop (prepareAt O S n) l F =
      .ok ⟨maps, fun k => if k ∈ l ∧ Due O n k then (F.sets k).extend (n / (O.probes k).schedule) else F.sets k⟩ := by
  induction l generalizing F with
  | nil =>
    obtain rfl := Res.ok.inj e
    simp [loop]
  | cons a l ih =>
    rw [loop_cons]
    by_cases c : Due O n a
    · have c' : n % (O.probes a).schedule = 0 := c
      have ed : dueOf O n (a :: l) = (O.probes a).prep :: dueOf O n l := by
        unfold dueOf
        rw [List.filter_cons_of_pos (by simpa using c)]
        rfl
      rw [ed] at e
      unfold Dump.prepare at e
      rw [loop_cons] at e
      obtain ⟨m1, e1, e2⟩ := Res.bind_ok e
      have e1' : Dump.prepareOne (worldOf O S) ⟨prepComp (O.probes a).component, (O.probes a).specie⟩ F.maps = .ok m1 := e1
      have st : prepareAt O S n a F =
          .ok ⟨m1, fun l => if l = a then (F.sets a).extend (n / (O.probes a).schedule) else F.sets l⟩ := by
        unfold prepareAt
        rw [frame_due (hs a List.mem_cons_self), Res.ok_bind, if_pos c']
        dsimp only
        rw [e1', Res.ok_bind]
      rw [st, Res.ok_bind, ih (fun k hk => hs k (List.mem_cons_of_mem _ hk)) ⟨m1, _⟩ e2]
      congr 2
      funext k
      by_cases ck : k = a
      · subst ck
        by_cases cl : k ∈ l
        · simp [cl, c, extend_twice]
        · simp [cl, c]
      · simp [ck]
    · have c' : ¬ n % (O.probes a).schedule = 0 := c
      have ed : dueOf O n (a :: l) = dueOf O n l := by
        unfold dueOf
        rw [List.filter_cons_of_neg (by simpa using c)]
      rw [ed] at e
      have st : prepareAt O S n a F = .ok F := by
        unfold prepareAt
        rw [frame_due (hs a List.mem_cons_self), Res.ok_bind, if_neg c']
      rw [st, Res.ok_bind, ih (fun k hk => hs k (List.mem_cons_of_mem _ hk)) _ e]
      congr 2
      funext k
      by_cases ck : k = a
      · subst ck
        simp [c]
      · simp [ck]

/-! ### The writers -/

/-- What the writer of one domain does to its dataset. -/
noncomputable def oneSet (O : OEnv) (S : State) (n : Nat) (maps : Nat → Dump.SMaps) (k : Nat) (q : Nat × Nat) (d : Dataset ℝ) : Res (Dataset ℝ) :=
  if Probe.touches (O.probes k).rect (domDims (geoOf O.E.p O.E.domR O.E.domZ) q.1 q.2) then
    valueOf O S maps (O.probes k) q.1 q.2 >>= fun v => match v with
      | none => .ok d
      | some g => Out.frame ((O.probes k).schedule % 2 ^ 16) n >>= fun f => match f with
        | none => .ok d
        | some num => d.write num (Probe.piece (O.probes k).rect (domDims (geoOf O.E.p O.E.domR O.E.domZ) q.1 q.2) g)
  else .ok d

theorem write_at (O : OEnv) (S : State) (n : Nat) (i j k : Nat) (F : Files) :
    writeAt O S n i j k F = oneSet O S n F.maps k (i, j) (F.sets k) >>= fun x => .ok { F with sets := fun l => if l = k then x else F.sets l } := by
  have same : ∀ F : Files, ({ F with sets := fun l => if l = k then F.sets k else F.sets l } : Files) = F := by
    intro F
    cases F
    congr 1
    funext l
    split
    · next h => rw [h]
    · rfl
  unfold writeAt oneSet
  dsimp only
  split
  · cases valueOf O S F.maps (O.probes k) i j with
    | ub => rfl
    | fatal => rfl
    | ok v =>
      rw [Res.ok_bind, Res.ok_bind]
      cases v with
      | none =>
        dsimp only
        rw [Res.ok_bind, same]
      | some g =>
        dsimp only
        cases Out.frame ((O.probes k).schedule % 2 ^ 16) n with
        | ub => rfl
        | fatal => rfl
        | ok f =>
          rw [Res.ok_bind, Res.ok_bind]
          cases f with
          | none =>
            dsimp only
            rw [Res.ok_bind, same]
          | some num => rfl
  · rw [Res.ok_bind, same]

/-- All writers of one domain. -/
theorem write_domain (O : OEnv) (S : State) (n : Nat) (q : Nat × Nat) (l : List Nat) (nd : l.Nodup) (F : Files) (x : Nat → Dataset ℝ)
    (e : ∀ k ∈ l, oneSet O S n F.maps k q (F.sets k) = .ok (x k)) :
    loop (writeAt O S n q.1 q.2) l F = .ok ⟨F.maps, fun k => if k ∈ l then x k else F.sets k⟩ := by
  induction l generalizing F with
  | nil => simp [loop]
  | cons a l ih =>
    obtain ⟨n1, n2⟩ := List.nodup_cons.mp nd
    rw [loop_cons, write_at, e a List.mem_cons_self, Res.ok_bind, Res.ok_bind, ih n2]
    · congr 2
      funext k
      by_cases ck : k = a
      · subst ck
        simp [n1]
      · simp [ck]
    · intro k hk
      have : k ≠ a := fun c => n1 (c ▸ hk)
      dsimp only
      rw [if_neg this]
      exact e k (List.mem_cons_of_mem _ hk)

/-- All writers of all domains. -/
theorem write_all (O : OEnv) (S : State) (n : Nat) (L : List (Nat × Nat)) (F : Files) (x : Nat → Dataset ℝ)
    (e : ∀ k, k < O.count → loop (oneSet O S n F.maps k) L (F.sets k) = .ok (x k)) :
    loop (fun q F => loop (writeAt O S n q.1 q.2) (List.range O.count) F) L F =
      .ok ⟨F.maps, fun k => if k < O.count then x k else F.sets k⟩ := by
  induction L generalizing F with
  | nil =>
    have : ∀ k, k < O.count → F.sets k = x k := fun k hk => Res.ok.inj (e k hk)
    rw [loop_nil]
    congr 1
    cases F
    congr 1
    funext k
    split
    · next h => exact this k h
    · rfl
  | cons q L ih =>
    have : ∀ k, ∃ y, k < O.count → oneSet O S n F.maps k q (F.sets k) = .ok y ∧ loop (oneSet O S n F.maps k) L y = .ok (x k) := by
      intro k
      by_cases hk : k < O.count
      · have ek := e k hk
        rw [loop_cons] at ek
        obtain ⟨y, e1, e2⟩ := Res.bind_ok ek
        exact ⟨y, fun _ => ⟨e1, e2⟩⟩
      · exact ⟨Dataset.create ⟨0, 0, 0, 0⟩, fun c => absurd c hk⟩
    choose y hy using this
    rw [loop_cons, write_domain O S n q _ List.nodup_range F y (fun k hk => (hy k (List.mem_range.mp hk)).1), Res.ok_bind, ih]
    · congr 2
      funext k
      by_cases hk : k < O.count <;> simp [hk]
    · intro k hk
      dsimp only
      rw [if_pos (List.mem_range.mpr hk)]
      exact (hy k hk).2

/-- The writers of one probe: nothing if it is not due or its species does not exist. -/
theorem set_idle (O : OEnv) (S : State) (n : Nat) (maps : Nat → Dump.SMaps) (k : Nat)
    (hs : 1 ≤ (O.probes k).schedule ∧ (O.probes k).schedule < 65536) (v : Nat → Nat → Option (Grid ℝ))
    (ev : ∀ i j, valueOf O S maps (O.probes k) i j = .ok (v i j)) (h : ¬ Due O n k ∨ ∀ i j, v i j = none)
    (L : List (Nat × Nat)) (d : Dataset ℝ) : loop (oneSet O S n maps k) L d = .ok d := by
  have one : ∀ q, oneSet O S n maps k q d = .ok d := by
    intro q
    unfold oneSet
    split
    · rw [ev, Res.ok_bind]
      cases hv : v q.1 q.2 with
      | none => rfl
      | some g =>
        dsimp only
        rcases h with h | h
        · rw [show (O.probes k).schedule % 2 ^ 16 = (O.probes k).schedule from Nat.mod_eq_of_lt (by omega), frame_due hs.1, Res.ok_bind]
          have h' : ¬ n % (O.probes k).schedule = 0 := h
          rw [if_neg h']
        · exact absurd (hv.symm.trans (h q.1 q.2)) (by simp)
    · rfl
  induction L with
  | nil => rfl
  | cons q L ih => rw [loop_cons, one, Res.ok_bind, ih]

/-- The writers of one probe that is due. -/
theorem set_write (O : OEnv) (S : State) (n : Nat) (maps : Nat → Dump.SMaps) (k : Nat)
    (hs : 1 ≤ (O.probes k).schedule ∧ (O.probes k).schedule < 65536) (g : Nat → Nat → Grid ℝ)
    (ev : ∀ i j, valueOf O S maps (O.probes k) i j = .ok (some (g i j))) (h : Due O n k)
    (L : List (Nat × Nat)) (d : Dataset ℝ) (hd : n / (O.probes k).schedule < d.rows) {f : Probe.Frame ℝ}
    (e : loop (fun q f => Probe.piece (O.probes k).rect (domDims (geoOf O.E.p O.E.domR O.E.domZ) q.1 q.2) (g q.1 q.2) f) L
      (d.frame (n / (O.probes k).schedule)) = .ok f) :
    loop (oneSet O S n maps k) L d = .ok { d with frame := fun m => if m = n / (O.probes k).schedule then f else d.frame m } := by
  have h' : n % (O.probes k).schedule = 0 := h
  induction L generalizing d with
  | nil =>
    have := Res.ok.inj e
    rw [loop_nil]
    congr 1
    cases d
    congr 1
    funext m
    split
    · next c => rw [c]; exact this
    · rfl
  | cons q L ih =>
    rw [loop_cons] at e
    obtain ⟨f1, e1, e2⟩ := Res.bind_ok e
    rw [loop_cons]
    have one : oneSet O S n maps k q d = .ok { d with frame := fun m => if m = n / (O.probes k).schedule then f1 else d.frame m } := by
      unfold oneSet
      by_cases c : Probe.touches (O.probes k).rect (domDims (geoOf O.E.p O.E.domR O.E.domZ) q.1 q.2) = true
      · rw [if_pos c, ev, Res.ok_bind]
        dsimp only
        rw [show (O.probes k).schedule % 2 ^ 16 = (O.probes k).schedule from Nat.mod_eq_of_lt (by omega), frame_due hs.1, Res.ok_bind,
          if_pos h']
        dsimp only
        unfold Dataset.write
        rw [if_pos hd, e1, Res.ok_bind]
      · rw [if_neg c]
        unfold Probe.piece at e1
        rw [if_neg c] at e1
        obtain rfl := Res.ok.inj e1
        congr 1
        cases d
        congr 1
        funext m
        split
        · next c => rw [c]
        · rfl
    have k2 := ih { d with frame := fun m => if m = n / (O.probes k).schedule then f1 else d.frame m } hd
      (by show loop _ L (if n / (O.probes k).schedule = n / (O.probes k).schedule then f1 else _) = _; rw [if_pos rfl]; exact e2)
    rw [one, Res.ok_bind, k2]
    congr 2
    funext m
    by_cases c : m = n / (O.probes k).schedule <;> simp [c]

/-! ### What the writers read -/

/-- The value of a map of species `s` in cell `(X, Y)` of the area. -/
def mapAt (O : OEnv) (maps : Nat → Dump.SMaps) (get : Maps.St → Grid ℝ) (s : Nat) (X Y : Nat) : ℝ :=
  (get (maps s (X / (O.E.p.nr / O.E.domR)) (Y / (O.E.p.nz / O.E.domZ)))).cell (X - low O.E.p.nr O.E.domR (X / (O.E.p.nr / O.E.domR)) + 2)
    (Y - low O.E.p.nz O.E.domZ (Y / (O.E.p.nz / O.E.domZ)) + 2)

/-- What the probe sees in cell `(X, Y)`, if it sees anything. -/
noncomputable def seenBy (O : OEnv) (S : State) (maps : Nat → Dump.SMaps) (p : OProbe) : Option (Nat → Nat → ℝ) :=
  match fieldOf p.component with
  | some c => some fun X Y => glue O.E S.M c X Y
  | none => match mapOf p.component, Dump.lookup O.names p.specie with
    | some get, some s => some (mapAt O maps get s)
    | _, _ => none

theorem geo_sane {O : OEnv} (h : O.Watched) : Probe.Sane (geoOf O.E.p O.E.domR O.E.domZ) := by
  have := h.div.r1
  have := h.div.z1
  have := h.div.r2
  have := h.div.z2
  exact ⟨h.r0, rfl, h.div.r1, h.div.z1, by show O.E.domR ≤ O.E.p.nr; omega, by show O.E.domZ ≤ O.E.p.nz; omega, h.smallR, h.smallZ⟩

theorem dims_low {O : OEnv} (h : O.Watched) (i j : Nat) : domDims (geoOf O.E.p O.E.domR O.E.domZ) i j =
    ⟨low O.E.p.nr O.E.domR i, low O.E.p.nz O.E.domZ j, low O.E.p.nr O.E.domR (i + 1), low O.E.p.nz O.E.domZ (j + 1)⟩ := by
  show (⟨low O.E.p.nr O.E.domR i + O.E.p.r0, low O.E.p.nz O.E.domZ j + 0, low O.E.p.nr O.E.domR (i + 1) + O.E.p.r0, low O.E.p.nz O.E.domZ (j + 1) + 0⟩ : CellDims) = _
  rw [h.r0]
  rfl

/-- A grid of a domain read within the domain. -/
theorem get_cell (g : Grid ℝ) {nr nz : Nat} (h : g.os = 2 ∧ g.xs = nr ∧ g.ys = nz) {a b : Nat} (ha : a < nr) (hb : b < nz) (hn : nr < 2 ^ 15)
    (hm : nz < 2 ^ 15) : g.get a b = .ok (g.cell (a + 2) (b + 2)) := by
  obtain ⟨h1, h2, h3⟩ := h
  unfold Grid.get Grid.rd Grid.uidx
  rw [h1]
  have e1 : (((a : Int) + (2 : Nat)) % 2 ^ 32).toNat = a + 2 := by omega
  have e2 : (((b : Int) + (2 : Nat)) % 2 ^ 32).toNat = b + 2 := by omega
  rw [e1, e2, if_pos]
  unfold Grid.xr Grid.yr
  omega

theorem toGrid_get (p : Yee.Par ℝ) (m : Mem ℝ) (c : Comp) {a b : Nat} (ha : a < p.nr) (hb : b < p.nz) (hn : p.nr < 2 ^ 15) (hm : p.nz < 2 ^ 15) :
    (toGrid p m c).get a b = .ok (m c a b) := by
  rw [get_cell (toGrid p m c) ⟨rfl, rfl, rfl⟩ ha hb hn hm]
  show Res.ok (m c (((a + 2 : Nat) : Int) - 2) (((b + 2 : Nat) : Int) - 2)) = _
  congr 2 <;> omega

/-- The cell of the area and the domain it is in. -/
theorem at_low {n d i a : Nat} (hd : 1 ≤ d) (h2 : 2 * d ≤ n) (h4 : d ∣ n) (ha : a < low n d (i + 1) - low n d i) :
    (low n d i + a) / (n / d) = i := by
  have := low_add hd h2 h4 (i := i) (x := (a : Int)) (by omega) (by unfold hgt; omega)
  rw [show ((low n d i : Int) + (a : Int)) = ((low n d i + a : Nat) : Int) by push_cast; rfl, Int.toNat_natCast] at this
  exact this

theorem low_le {n d i : Nat} (hd : 1 ≤ d) (hi : i < d) : low n d (i + 1) ≤ n := by
  unfold low
  calc n * (i + 1) / d ≤ n * d / d := Nat.div_le_div_right (Nat.mul_le_mul_left _ hi)
    _ = n := Nat.mul_div_cancel _ hd

theorem comp_cases {c : List Char} (h : c ∈ Probe.fieldBased ++ Probe.specieBased) : (∃ x, fieldOf c = some x) ∨ (fieldOf c = none ∧ ∃ g, mapOf c = some g) := by
  unfold Probe.fieldBased Probe.specieBased at h
  simp only [List.cons_append, List.nil_append, List.mem_cons, List.not_mem_nil, or_false] at h
  rcases h with rfl | rfl | rfl | rfl | rfl | rfl | rfl | rfl | rfl | rfl | rfl | rfl | rfl | rfl | rfl
  · exact .inl ⟨_, rfl⟩
  · exact .inl ⟨_, rfl⟩
  · exact .inl ⟨_, rfl⟩
  · exact .inl ⟨_, rfl⟩
  · exact .inl ⟨_, rfl⟩
  · exact .inl ⟨_, rfl⟩
  · exact .inl ⟨_, rfl⟩
  · exact .inl ⟨_, rfl⟩
  · exact .inl ⟨_, rfl⟩
  · exact .inr ⟨rfl, _, rfl⟩
  · exact .inr ⟨rfl, _, rfl⟩
  · exact .inr ⟨rfl, _, rfl⟩
  · exact .inr ⟨rfl, _, rfl⟩
  · exact .inr ⟨rfl, _, rfl⟩
  · exact .inr ⟨rfl, _, rfl⟩

theorem map_shape {c : List Char} {get : Maps.St → Grid ℝ} (e : mapOf c = some get) {g : Geom ℝ} {m : Maps.St} (h : Dump.Maps2 g m) :
    (get m).os = 2 ∧ (get m).xs = g.nr ∧ (get m).ys = g.nz := by
  unfold mapOf at e
  split at e
  · obtain rfl := Option.some.inj e
    exact ⟨h.temperature, h.over.temperature.xs, h.over.temperature.ys⟩
  split at e
  · obtain rfl := Option.some.inj e
    exact ⟨h.density, h.over.density.xs, h.over.density.ys⟩
  split at e
  · obtain rfl := Option.some.inj e
    exact ⟨h.energy, h.over.energy.xs, h.over.energy.ys⟩
  split at e
  · obtain rfl := Option.some.inj e
    exact ⟨h.momR, h.over.mom.r.xs, h.over.mom.r.ys⟩
  split at e
  · obtain rfl := Option.some.inj e
    exact ⟨h.momPhi, h.over.mom.phi.xs, h.over.mom.phi.ys⟩
  split at e
  · obtain rfl := Option.some.inj e
    exact ⟨h.momZ, h.over.mom.z.xs, h.over.mom.z.ys⟩
  · exact nomatch e

/-- What the writers of a probe read: nothing at all, or grids that hold what the probe sees. -/
theorem value_seen {O : OEnv} (h : O.Watched) (S : State) {maps : Nat → Dump.SMaps} (hm : Dump.AllGood (worldOf O S) maps) {p : OProbe}
    (hp : p.Fits O.E) :
    (seenBy O S maps p = none ∧ ∀ i j, valueOf O S maps p i j = .ok none) ∨
    ∃ (G : Nat → Nat → ℝ) (g : Nat → Nat → Grid ℝ), seenBy O S maps p = some G ∧ (∀ i j, valueOf O S maps p i j = .ok (some (g i j))) ∧
      ∀ i j, i < O.E.domR → j < O.E.domZ → Probe.Holds G (domDims (geoOf O.E.p O.E.domR O.E.domZ) i j) (g i j) := by
  have sr := h.smallR
  have sz := h.smallZ
  rcases comp_cases hp.known with ⟨c, ec⟩ | ⟨e1, get, e2⟩
  · refine .inr ⟨fun X Y => glue O.E S.M c X Y, fun i j => toGrid (domPar O.E.p O.E.domR O.E.domZ i j) (S.M i j) c, ?_, fun i j => ?_,
      fun i j hi hj a b ha hb => ?_⟩
    · unfold seenBy
      rw [ec]
    · unfold valueOf
      rw [ec]
    · rw [dims_low h] at ha hb ⊢
      dsimp only at ha hb ⊢
      have l1 := low_le (n := O.E.p.nr) h.div.r1 hi
      have l2 := low_le (n := O.E.p.nz) h.div.z1 hj
      have q1 : a < (domPar O.E.p O.E.domR O.E.domZ i j).nr := by rw [domPar_eq h.div, winPar_nr]; exact ha
      have q2 : b < (domPar O.E.p O.E.domR O.E.domZ i j).nz := by rw [domPar_eq h.div, winPar_nz]; exact hb
      have q3 : (domPar O.E.p O.E.domR O.E.domZ i j).nr < 2 ^ 15 := by rw [domPar_eq h.div, winPar_nr]; unfold hgt; omega
      have q4 : (domPar O.E.p O.E.domR O.E.domZ i j).nz < 2 ^ 15 := by rw [domPar_eq h.div, winPar_nz]; unfold hgt; omega
      rw [toGrid_get _ _ _ q1 q2 q3 q4]
      have := cell_glue h.div (E := O.E) (i := i) (j := j) (x := a) (y := b)
        ⟨hi, hj, ⟨by omega, by unfold hgt; omega⟩, by omega, by unfold hgt; omega⟩ S.M c
      push_cast
      rw [this]
  · cases el : Dump.lookup O.names p.specie with
    | none =>
      refine .inl ⟨?_, fun i j => ?_⟩
      · unfold seenBy
        rw [e1, e2, el]
      · unfold valueOf
        rw [e1, e2, el]
        rfl
    | some s =>
      refine .inr ⟨mapAt O maps get s, fun i j => get (maps s i j), ?_, fun i j => ?_, fun i j hi hj a b ha hb => ?_⟩
      · unfold seenBy
        rw [e1, e2, el]
      · unfold valueOf
        rw [e1, e2, el]
        rfl
      · rw [dims_low h] at ha hb ⊢
        dsimp only at ha hb ⊢
        have l1 := low_le (n := O.E.p.nr) h.div.r1 hi
        have l2 := low_le (n := O.E.p.nz) h.div.z1 hj
        have sh := map_shape e2 (hm s i j hi hj)
        rw [get_cell (get (maps s i j)) sh ha hb (by show low O.E.p.nr O.E.domR (i + 1) - low O.E.p.nr O.E.domR i < _; omega)
          (by show low O.E.p.nz O.E.domZ (j + 1) - low O.E.p.nz O.E.domZ j < _; omega)]
        unfold mapAt
        rw [at_low h.div.r1 h.div.r2 h.div.r4 ha, at_low h.div.z1 h.div.z2 h.div.z4 hb, Nat.add_sub_cancel_left, Nat.add_sub_cancel_left]

/-! ### One output -/

theorem world_good {O : OEnv} (h : O.Watched) {S : State} (hs : Held O.E S) : (worldOf O S).Good := by
  have r1 := h.div.r1
  have z1 := h.div.z1
  have hg : ∀ n d i, 1 ≤ d → 2 * d ≤ n → d ∣ n → low n d i + 2 ≤ low n d (i + 1) := by
    intro n d i a b c
    have e1 : low n d i ≤ low n d (i + 1) := by
      unfold low
      exact Nat.div_le_div_right (Nat.mul_le_mul_left _ (Nat.le_succ i))
    have e2 := hgt_const a c i
    unfold hgt at e2
    have : 2 ≤ n / d := by
      rw [Nat.le_div_iff_mul_le (by omega)]
      exact b
    omega
  refine ⟨h.dr, h.dz, fun i _ => hg _ _ _ r1 h.div.r2 h.div.r4, fun j _ => hg _ _ _ z1 h.div.z2 h.div.z4, fun i hi => ?_, fun j hj => ?_, h.par,
    fun s i j hi hj p hp => ?_⟩
  · have := low_le (n := O.E.p.nr) r1 hi
    have := h.smallR
    show low O.E.p.nr O.E.domR (i + 1) < _
    omega
  · have := low_le (n := O.E.p.nz) z1 hj
    have := h.smallZ
    show low O.E.p.nz O.E.domZ (j + 1) < _
    omega
  · have hp : p ∈ (((S.D i j)[s]?).elim [] Sp.parts).map fun o => vpOf (S.heap o.tag) := hp
    obtain ⟨o, ho, rfl⟩ := List.mem_map.mp hp
    cases es : (S.D i j)[s]? with
    | none => rw [es] at ho; exact absurd ho List.not_mem_nil
    | some sp =>
      rw [es] at ho
      have c := hs i j hi hj sp (List.mem_of_getElem? es) o ho
      have eg : O.E.geom i j = (worldOf O S).geo i j := by
        unfold Env.geom
        rw [domCtx_eq O.E.p h.div]
        show (⟨_, _, low O.E.p.nr O.E.domR i + O.E.p.r0, low O.E.p.nz O.E.domZ j + 0, _, _⟩ : Geom ℝ) = _
        rw [h.r0]
        rfl
      rw [← eg]
      exact c

/-- An empty frame of a probe. -/
def blank (p : Probe.Rect) : Probe.Frame ℝ := ⟨p.r1 - p.r0, p.z1 - p.z0, fun _ _ => none⟩

/-- What a frame should contain. -/
def FrameOf (p : Probe.Rect) (f : Probe.Frame ℝ) : Option (Nat → Nat → ℝ) → Prop
  | none => f = blank p
  | some G => ShowsFrame p f G

theorem outputs_ok {O : OEnv} (h : O.Watched) {S : State} (hs : Held O.E S) (n : Nat) (F : Files) (hm : Dump.AllGood (worldOf O S) F.maps)
    (hb : ∀ k, k < O.count → Due O n k → (F.sets k).frame (n / (O.probes k).schedule) = blank (O.probes k).rect) :
    ∃ F', outputs O S n F = .ok F' ∧ Dump.AllGood (worldOf O S) F'.maps ∧
      Dump.prepare (worldOf O S) (dueOf O n (List.range O.count)) F.maps = .ok F'.maps ∧
      ∀ k, k < O.count → (¬ Due O n k → F'.sets k = F.sets k) ∧
        (Due O n k → (F'.sets k).rows = ((F.sets k).extend (n / (O.probes k).schedule)).rows ∧
          (∀ m, m ≠ n / (O.probes k).schedule → (F'.sets k).frame m = (F.sets k).frame m) ∧
          FrameOf (O.probes k).rect ((F'.sets k).frame (n / (O.probes k).schedule)) (seenBy O S F'.maps (O.probes k))) := by
  obtain ⟨P, e1, gP⟩ := Dump.C88_prepares (worldOf O S) (world_good h hs) (dueOf O n (List.range O.count)) F.maps hm
  have L := prepare_loop O S n (List.range O.count) (fun k hk => (h.probes k (List.mem_range.mp hk)).every.1) F e1
  unfold outputs
  rw [L, Res.ok_bind]
  generalize hT : (fun k => if k ∈ List.range O.count ∧ Due O n k then (F.sets k).extend (n / (O.probes k).schedule) else F.sets k) = T
  have t1 : ∀ k, k < O.count → Due O n k → T k = (F.sets k).extend (n / (O.probes k).schedule) := by
    intro k hk hd
    rw [← hT]
    exact if_pos ⟨List.mem_range.mpr hk, hd⟩
  have t2 : ∀ k, ¬ Due O n k → T k = F.sets k := by
    intro k hd
    rw [← hT]
    exact if_neg fun c => hd c.2
  have fr : ∀ (d : Dataset ℝ) (a : Nat), (d.extend a).frame = d.frame ∧ a < (d.extend a).rows := by
    intro d a
    unfold Dataset.extend
    split
    · next c => exact ⟨rfl, c⟩
    · exact ⟨rfl, Nat.lt_succ_self a⟩
  have : ∀ k, ∃ x, k < O.count → loop (oneSet O S n P k) (idx2 0 O.E.domR 0 O.E.domZ) (T k) = .ok x ∧ (¬ Due O n k → x = T k) ∧
      (Due O n k → x.rows = (T k).rows ∧ (∀ m, m ≠ n / (O.probes k).schedule → x.frame m = (T k).frame m) ∧
        FrameOf (O.probes k).rect (x.frame (n / (O.probes k).schedule)) (seenBy O S P (O.probes k))) := by
    intro k
    by_cases hk : k < O.count
    swap
    · exact ⟨T k, fun c => absurd c hk⟩
    have hp := h.probes k hk
    by_cases hd : Due O n k
    swap
    · rcases value_seen h S gP hp with ⟨_, v⟩ | ⟨G, g, _, v, _⟩
      · exact ⟨T k, fun _ => ⟨set_idle O S n P k hp.every _ v (.inl hd) _ _, fun _ => rfl, fun c => absurd c hd⟩⟩
      · exact ⟨T k, fun _ => ⟨set_idle O S n P k hp.every _ v (.inl hd) _ _, fun _ => rfl, fun c => absurd c hd⟩⟩
    have ef : (T k).frame (n / (O.probes k).schedule) = blank (O.probes k).rect := by
      rw [t1 k hk hd, (fr _ _).1]
      exact hb k hk hd
    rcases value_seen h S gP hp with ⟨c, v⟩ | ⟨G, g, c, v, hold⟩
    · refine ⟨T k, fun _ => ⟨set_idle O S n P k hp.every _ v (.inr fun _ _ => rfl) _ _, fun _ => rfl, fun _ => ⟨rfl, fun _ _ => rfl, ?_⟩⟩⟩
      rw [c]
      exact ef
    · obtain ⟨f, e3, v3⟩ := Probe.C44_partial (O.probes k).rect (geoOf O.E.p O.E.domR O.E.domZ) (geo_sane h) g G hold
        ⟨hp.rows.1, hp.cols.1.le⟩ ⟨hp.rows.2, hp.cols.2⟩ (fun i i0 i1 => hp.edge i i0 i1)
      have e4 : loop (fun (q : Nat × Nat) f => Probe.piece (O.probes k).rect (domDims (geoOf O.E.p O.E.domR O.E.domZ) q.1 q.2) (g q.1 q.2) f)
          (idx2 0 O.E.domR 0 O.E.domZ) ((T k).frame (n / (O.probes k).schedule)) = .ok f := by
        rw [ef]
        exact e3
      refine ⟨_, fun _ => ⟨set_write O S n P k hp.every g v hd _ _ (by rw [t1 k hk hd]; exact (fr _ _).2) e4, fun c => absurd hd c, fun _ => ⟨rfl,
        fun m hm => if_neg hm, ?_⟩⟩⟩
      rw [c]
      show ShowsFrame _ (if n / (O.probes k).schedule = n / (O.probes k).schedule then f else _) _
      rw [if_pos rfl]
      refine ⟨?_, fun a b => ?_⟩
      · refine loop_keeps (fun f : Probe.Frame ℝ => f.h = (O.probes k).rect.r1 - (O.probes k).rect.r0 ∧ f.w = (O.probes k).rect.z1 - (O.probes k).rect.z0)
          _ _ ?_ _ _ ?_ e4
        · intro q _ f1 f2 hf ef
          unfold Probe.piece at ef
          split at ef
          · dsimp only at ef
            split at ef
            · exact nomatch ef
            · obtain ⟨v, _, ef⟩ := Res.bind_ok ef
              unfold Probe.writeRec at ef
              split at ef
              · exact nomatch ef
              · split at ef
                · obtain rfl := Res.ok.inj ef
                  exact hf
                · exact nomatch ef
          · obtain rfl := Res.ok.inj ef
            exact hf
        · rw [ef]
          exact ⟨rfl, rfl⟩
      · rw [v3]
        have : (O.probes k).rect.Has ((O.probes k).rect.r0 + a) ((O.probes k).rect.z0 + b) ↔
            a < (O.probes k).rect.r1 - (O.probes k).rect.r0 ∧ b < (O.probes k).rect.z1 - (O.probes k).rect.z0 := by
          unfold Probe.Rect.Has
          omega
        by_cases ck : a < (O.probes k).rect.r1 - (O.probes k).rect.r0 ∧ b < (O.probes k).rect.z1 - (O.probes k).rect.z0
        · rw [if_pos ck, if_pos (this.mpr ck)]
        · rw [if_neg ck, if_neg (fun c => ck (this.mp c))]
  choose x hx using this
  have W := write_all O S n (idx2 0 O.E.domR 0 O.E.domZ) ⟨P, T⟩ x (fun k hk => (hx k hk).1)
  refine ⟨_, W, gP, e1, fun k hk => ?_⟩
  dsimp only
  rw [if_pos hk]
  obtain ⟨_, a, b⟩ := hx k hk
  refine ⟨fun hd => ?_, fun hd => ?_⟩
  · rw [a hd, t2 k hd]
  · obtain ⟨b1, b2, b3⟩ := b hd
    rw [t1 k hk hd] at b1 b2
    exact ⟨b1, fun m hm => by rw [b2 m hm, (fr _ _).1], b3⟩

/-! ### All outputs -/

theorem record_ok {O : OEnv} (h : O.Watched) (hist : Nat → State) {F0 : Files} (h0 : F0.Start O) (N : Nat) (hN : N ≤ 2 ^ 31)
    (hh : ∀ n, n < N → Held O.E (hist (n + 1))) :
    ∃ (F : Files) (P : Nat → Nat → Dump.SMaps), record O hist F0 N = .ok (N * O.E.p.dt, F) ∧ (∀ S, Dump.AllGood (worldOf O S) F.maps) ∧
      (∀ n, n < N → ∃ Q, Dump.AllGood (worldOf O (hist (n + 1))) Q ∧
        Dump.prepare (worldOf O (hist (n + 1))) (dueOf O n (List.range O.count)) Q = .ok (P n)) ∧
      ∀ k, k < O.count → (F.sets k).rows = max 1 (frames (O.probes k).schedule N) ∧
        ∀ f, (f * (O.probes k).schedule < N → FrameOf (O.probes k).rect ((F.sets k).frame f)
            (seenBy O (hist (f * (O.probes k).schedule + 1)) (P (f * (O.probes k).schedule)) (O.probes k))) ∧
          (¬ f * (O.probes k).schedule < N → (F.sets k).frame f = blank (O.probes k).rect) := by
  induction N with
  | zero =>
    refine ⟨F0, fun _ => F0.maps, by simp [record], h0.maps, fun n hn => absurd hn (Nat.not_lt_zero _), fun k hk => ?_⟩
    rw [h0.sets k]
    have := (h.probes k hk).every
    refine ⟨?_, fun f => ⟨fun c => absurd c (Nat.not_lt_zero _), fun _ => rfl⟩⟩
    have : frames (O.probes k).schedule 0 = 0 := by unfold frames; exact Nat.div_eq_of_lt (by omega)
    rw [this]
    rfl
  | succ N ih =>
    obtain ⟨F, P, e, gm, pr, st⟩ := ih (by omega) fun n hn => hh n (by omega)
    have dvd : ∀ k, k < O.count → Due O N k → N / (O.probes k).schedule * (O.probes k).schedule = N := by
      intro k hk hd
      exact Nat.div_mul_cancel (Nat.dvd_of_mod_eq_zero hd)
    obtain ⟨F', eo, g', p', s'⟩ := outputs_ok h (hh N (Nat.lt_succ_self N)) N F (gm _) (fun k hk hd => by
      refine ((st k hk).2 _).2 ?_
      rw [dvd k hk hd]
      omega)
    obtain ⟨P', hP1, hP2⟩ : ∃ P' : Nat → Nat → Dump.SMaps, P' N = F'.maps ∧ ∀ n, n ≠ N → P' n = P n :=
      ⟨fun n => if n = N then F'.maps else P n, if_pos rfl, fun n hn => if_neg hn⟩
    refine ⟨F', P', ?_, fun S => g', fun n hn => ?_, fun k hk => ?_⟩
    · rw [record, e, Res.ok_bind]
      dsimp only
      rw [Out.stepNo_exact O.E.p.dt h.dt N (by omega), Res.ok_bind, eo, Res.ok_bind]
      congr 2
      push_cast
      ring
    · by_cases c : n = N
      · subst c
        rw [hP1]
        exact ⟨F.maps, gm _, p'⟩
      · rw [hP2 n c]
        exact pr n (by omega)
    · have ev := (h.probes k hk).every
      obtain ⟨a, b⟩ := st k hk
      obtain ⟨c, d⟩ := s' k hk
      by_cases hd : Due O N k
      · obtain ⟨d1, d2, d3⟩ := d hd
        obtain ⟨u1, u2⟩ := Out.frameCount_succ_hit (O.probes k).schedule N (by omega) hd
        have v1 : frames (O.probes k).schedule N = N / (O.probes k).schedule := u1
        have v2 : frames (O.probes k).schedule (N + 1) = N / (O.probes k).schedule + 1 := u2
        have dk := dvd k hk hd
        refine ⟨?_, fun f => ?_⟩
        · rw [d1, v2]
          unfold Dataset.extend
          rw [a, v1]
          split
          · next q => omega
          · show N / (O.probes k).schedule + 1 = _
            omega
        · by_cases cf : f = N / (O.probes k).schedule
          · subst cf
            refine ⟨fun _ => ?_, fun q => ?_⟩
            · rw [dk, hP1]
              exact d3
            · rw [dk] at q
              omega
          · have ne : f * (O.probes k).schedule ≠ N := by
              intro q
              refine cf ?_
              rw [← q, Nat.mul_div_cancel _ (by omega)]
            rw [d2 f cf, hP2 _ ne]
            refine ⟨fun q => (b f).1 (by omega), fun q => (b f).2 (by omega)⟩
      · rw [c hd]
        have u := Out.frameCount_succ_miss (O.probes k).schedule N (by omega) hd
        have v : frames (O.probes k).schedule (N + 1) = frames (O.probes k).schedule N := u
        refine ⟨by rw [a, v], fun f => ?_⟩
        have ne : f * (O.probes k).schedule ≠ N := by
          intro q
          refine hd ?_
          show N % (O.probes k).schedule = 0
          rw [← q]
          exact Nat.mul_mod_left _ _
        rw [hP2 _ ne]
        exact ⟨fun q => (b f).1 (by omega), fun q => (b f).2 (by omega)⟩

end Pic
end Pico
