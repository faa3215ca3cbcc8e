import Verif.Spec.CollidePass
import Verif.Props.CollideTA
import Verif.Props.Pairing
import Verif.Lemmas.DumpMaps

/-! Lemmas about whole collision steps. -/

set_option linter.unusedSectionVars false
set_option linter.unusedSimpArgs false
set_option linter.unusedVariables false

namespace Pico
namespace Coll

/-! ### The heap -/

theorem setVel_vel (p : Part ℝ) : setVel p (vel p) = p := rfl
theorem OnlyVel.refl (p : Part ℝ) : OnlyVel p p := ⟨vel p, rfl⟩
theorem OnlyVel.trans {p q r : Part ℝ} (h : OnlyVel p q) (h' : OnlyVel q r) : OnlyVel p r := by
  obtain ⟨v, rfl⟩ := h
  obtain ⟨u, rfl⟩ := h'
  exact ⟨u, rfl⟩
theorem OnlyVel.weight {p q : Part ℝ} (h : OnlyVel p q) : q.weight = p.weight := by
  obtain ⟨v, rfl⟩ := h; rfl
theorem OnlyVel.cell {p q : Part ℝ} (h : OnlyVel p q) : q.cellR = p.cellR ∧ q.cellZ = p.cellZ := by
  obtain ⟨v, rfl⟩ := h; exact ⟨rfl, rfl⟩

theorem put_self (h : Heap) (t : Nat) (q : Part ℝ) : put h t q t = q := if_pos rfl
theorem put_other (h : Heap) {t s : Nat} (q : Part ℝ) (n : s ≠ t) : put h t q s = h s := if_neg n

theorem putAll_other {ts : List Nat} {qs : List (Part ℝ)} {h : Heap} {s : Nat} (n : s ∉ ts) : putAll ts qs h s = h s := by
  induction ts generalizing qs h with
  | nil => cases qs <;> rfl
  | cons t ts ih =>
    cases qs with
    | nil => rfl
    | cons q qs =>
      rw [putAll, ih (fun k => n (List.mem_cons_of_mem _ k)), put_other _ _ (fun k => n (by rw [k]; exact List.mem_cons_self))]

theorem putAll_map {ts : List Nat} {qs : List (Part ℝ)} {h : Heap} (hn : ts.Nodup) (hl : ts.length = qs.length) : ts.map (putAll ts qs h) = qs := by
  induction ts generalizing qs h with
  | nil => cases qs with
    | nil => rfl
    | cons q qs => simp at hl
  | cons t ts ih =>
    cases qs with
    | nil => simp at hl
    | cons q qs =>
      rw [List.nodup_cons] at hn
      rw [List.map_cons, putAll, ih hn.2 (by simpa using hl), putAll_other hn.1, put_self]

/-! ### Corrections -/

/-- A list to be corrected. -/
noncomputable def job (before : Heap) (h : Heap) (j : ℝ × List Nat) : Heap :=
  putAll j.2 (correct j.1 (collectTotals j.1 (j.2.map before)) (j.2.map h)) h

theorem correct_length (m : ℝ) (t : Totals) (l : List (Part ℝ)) : (correct m t l).length = l.length := by
  unfold correct
  dsimp only
  split <;> simp

theorem job_other (before h : Heap) (j : ℝ × List Nat) {s : Nat} (n : s ∉ j.2) : job before h j s = h s := putAll_other n

theorem job_map (before h : Heap) (j : ℝ × List Nat) (hn : j.2.Nodup) :
    j.2.map (job before h j) = correct j.1 (collectTotals j.1 (j.2.map before)) (j.2.map h) :=
  putAll_map hn (by rw [correct_length, List.length_map])

theorem jobs_other (before : Heap) (J : List (ℝ × List Nat)) (h : Heap) {s : Nat} (n : ∀ j ∈ J, s ∉ j.2) : J.foldl (job before) h s = h s := by
  induction J generalizing h with
  | nil => rfl
  | cons j J ih => rw [List.foldl_cons, ih _ (fun k hk => n k (List.mem_cons_of_mem _ hk)), job_other _ _ _ (n j List.mem_cons_self)]

theorem jobs_map (before : Heap) (J : List (ℝ × List Nat)) (h : Heap) (hn : ∀ j ∈ J, j.2.Nodup)
    (hd : J.Pairwise fun a b => List.Disjoint a.2 b.2) :
    ∀ j ∈ J, j.2.map (J.foldl (job before) h) = correct j.1 (collectTotals j.1 (j.2.map before)) (j.2.map h) := by
  induction J generalizing h with
  | nil => intro j hj; simp at hj
  | cons k J ih =>
    rw [List.pairwise_cons] at hd
    intro j hj
    rw [List.foldl_cons]
    rcases List.mem_cons.mp hj with rfl | hj
    · rw [← job_map before h j (hn j List.mem_cons_self)]
      apply List.map_congr_left
      intro s hs
      exact jobs_other _ _ _ fun i hi k => hd.1 i hi hs k
    · rw [ih _ (fun i hi => hn i (List.mem_cons_of_mem _ hi)) hd.2 j hj]
      congr 1
      apply List.map_congr_left
      intro s hs
      exact job_other _ _ _ fun q => hd.1 j hj q hs

/-- The lists of all cells. -/
def jobsOf (K : Kinds) (g : Place) (els ions : Nat → Nat → List Nat) : List (ℝ × List Nat) :=
  (idx2 0 g.nr 0 g.nz).flatMap fun c => [(K.massIon, ions c.1 c.2), (K.massEl, els c.1 c.2)]

/-- The lists of the cells have no address in common. -/
structure Apart (g : Place) (els ions : Nat → Nat → List Nat) : Prop where
  els_nodup : ∀ i j, i < g.nr → j < g.nz → (els i j).Nodup
  ions_nodup : ∀ i j, i < g.nr → j < g.nz → (ions i j).Nodup
  ee : ∀ i j i' j', i < g.nr → j < g.nz → i' < g.nr → j' < g.nz → (i, j) ≠ (i', j') → (els i j).Disjoint (els i' j')
  ii : ∀ i j i' j', i < g.nr → j < g.nz → i' < g.nr → j' < g.nz → (i, j) ≠ (i', j') → (ions i j).Disjoint (ions i' j')
  ei : ∀ i j i' j', i < g.nr → j < g.nz → i' < g.nr → j' < g.nz → (els i j).Disjoint (ions i' j')

theorem correctAll_jobs (K : Kinds) (g : Place) (els ions : Nat → Nat → List Nat) (before h : Heap)
    (ap : Apart g els ions) : correctAll K g els ions before h = (jobsOf K g els ions).foldl (job before) h := by
  unfold correctAll jobsOf
  have key : ∀ (L : List (Nat × Nat)) (h : Heap), (∀ c ∈ L, c.1 < g.nr ∧ c.2 < g.nz) → L.foldl (fun h c => correctCell K els ions before c h) h =
      (L.flatMap fun c => [(K.massIon, ions c.1 c.2), (K.massEl, els c.1 c.2)]).foldl (job before) h := by
    intro L
    induction L with
    | nil => intro h _; rfl
    | cons c L ih =>
      intro h hc
      rw [List.foldl_cons, ih _ (fun d hd => hc d (List.mem_cons_of_mem _ hd)), List.flatMap_cons, List.foldl_append]
      rfl
  apply key
  intro c hc
  rw [mem_idx2] at hc
  omega

theorem jobs_apart {K : Kinds} {g : Place} {els ions : Nat → Nat → List Nat} (ap : Apart g els ions) :
    (∀ j ∈ jobsOf K g els ions, j.2.Nodup) ∧ (jobsOf K g els ions).Pairwise fun a b => List.Disjoint a.2 b.2 := by
  unfold jobsOf
  constructor
  · intro j hj
    obtain ⟨c, hc, hj⟩ := List.mem_flatMap.mp hj
    rw [mem_idx2] at hc
    simp only [List.mem_cons, List.not_mem_nil, or_false] at hj
    rcases hj with rfl | rfl
    · exact ap.ions_nodup _ _ (by omega) (by omega)
    · exact ap.els_nodup _ _ (by omega) (by omega)
  · rw [List.pairwise_flatMap]
    refine ⟨?_, ?_⟩
    · intro c hc
      rw [mem_idx2] at hc
      simp only [List.pairwise_cons, List.mem_cons, List.not_mem_nil, or_false, forall_eq, false_implies, implies_true, and_true,
        List.Pairwise.nil]
      exact (ap.ei _ _ _ _ (by omega) (by omega) (by omega) (by omega)).symm
    · have nd := nodup_idx2 0 g.nr 0 g.nz
      refine List.Pairwise.imp_of_mem ?_ nd
      intro c d hc hd n x hx y hy
      rw [mem_idx2] at hc hd
      simp only [List.mem_cons, List.not_mem_nil, or_false] at hx hy
      rcases hx with rfl | rfl <;> rcases hy with rfl | rfl
      · exact ap.ii _ _ _ _ (by omega) (by omega) (by omega) (by omega) n
      · exact (ap.ei _ _ _ _ (by omega) (by omega) (by omega) (by omega)).symm
      · exact ap.ei _ _ _ _ (by omega) (by omega) (by omega) (by omega)
      · exact ap.ee _ _ _ _ (by omega) (by omega) (by omega) (by omega) n

/-- The correction of the lists of one cell. -/
theorem correctAll_cell {K : Kinds} {g : Place} {els ions : Nat → Nat → List Nat} (ap : Apart g els ions) (before h : Heap) {i j : Nat}
    (hi : i < g.nr) (hj : j < g.nz) :
    (ions i j).map (correctAll K g els ions before h) = correct K.massIon (collectTotals K.massIon ((ions i j).map before)) ((ions i j).map h) ∧
    (els i j).map (correctAll K g els ions before h) = correct K.massEl (collectTotals K.massEl ((els i j).map before)) ((els i j).map h) := by
  have ja := jobs_apart (K := K) ap
  rw [correctAll_jobs K g els ions before h ap]
  have m : (i, j) ∈ idx2 0 g.nr 0 g.nz := by rw [mem_idx2]; omega
  exact ⟨jobs_map before _ h ja.1 ja.2 (K.massIon, ions i j) (List.mem_flatMap.mpr ⟨(i, j), m, by simp⟩),
    jobs_map before _ h ja.1 ja.2 (K.massEl, els i j) (List.mem_flatMap.mpr ⟨(i, j), m, by simp⟩)⟩

theorem correctAll_other {K : Kinds} {g : Place} {els ions : Nat → Nat → List Nat} (ap : Apart g els ions) (before h : Heap) {s : Nat}
    (n : ∀ i j, i < g.nr → j < g.nz → s ∉ els i j ∧ s ∉ ions i j) : correctAll K g els ions before h s = h s := by
  rw [correctAll_jobs K g els ions before h ap]
  apply jobs_other
  intro j hj
  obtain ⟨c, hc, hj⟩ := List.mem_flatMap.mp hj
  rw [mem_idx2] at hc
  have := n c.1 c.2 (by omega) (by omega)
  simp only [List.mem_cons, List.not_mem_nil, or_false] at hj
  rcases hj with rfl | rfl
  · exact this.2
  · exact this.1

theorem correct_only (m : ℝ) (t : Totals) (l : List (Part ℝ)) : List.Forall₂ OnlyVel l (correct m t l) := by
  unfold correct
  dsimp only
  split
  · exact List.forall₂_same.mpr fun p _ => .refl p
  · rw [List.forall₂_map_right_iff]
    exact List.forall₂_same.mpr fun p _ => ⟨_, rfl⟩

theorem forall₂_maps {R : Part ℝ → Part ℝ → Prop} {l : List Nat} {f f' : Nat → Part ℝ} (h : List.Forall₂ R (l.map f) (l.map f')) :
    ∀ s ∈ l, R (f s) (f' s) := by
  rw [List.forall₂_map_left_iff, List.forall₂_map_right_iff, List.forall₂_same] at h
  exact h

theorem correctAll_only {K : Kinds} {g : Place} {els ions : Nat → Nat → List Nat} (ap : Apart g els ions) (before h : Heap) (s : Nat) :
    OnlyVel (h s) (correctAll K g els ions before h s) := by
  by_cases c : ∀ i j, i < g.nr → j < g.nz → s ∉ els i j ∧ s ∉ ions i j
  · rw [correctAll_other ap before h c]; exact .refl _
  · simp only [not_forall, not_and_or, not_not] at c
    obtain ⟨i, j, hi, hj, c⟩ := c
    have cc := correctAll_cell (K := K) ap before h hi hj
    rcases c with c | c
    · exact forall₂_maps (f := h) (f' := correctAll K g els ions before h) (by rw [cc.2]; exact correct_only ..) s c
    · exact forall₂_maps (f := h) (f' := correctAll K g els ions before h) (by rw [cc.1]; exact correct_only ..) s c

/-! ### The collisions -/

theorem ta_only {pi ma mb delta phi dzeta : ℝ} {pa pb : Part ℝ} {q : Part ℝ × Part ℝ} (h : collideTA pi ma mb delta phi dzeta pa pb = .ok q) :
    OnlyVel pa q.1 ∧ OnlyVel pb q.2 := by
  unfold collideTA at h
  split at h
  · cases h
  · dsimp only at h
    split at h <;> (injection h with h; subst h; exact ⟨⟨_, rfl⟩, ⟨_, rfl⟩⟩)

theorem taFull_only {k : Const} {dt ma mb qa qb na nb debye n phi dzeta : ℝ} {pa pb : Part ℝ} {q : Part ℝ × Part ℝ}
    (h : collideTAFull k dt ma mb qa qb na nb debye n phi dzeta pa pb = .ok q) : OnlyVel pa q.1 ∧ OnlyVel pb q.2 := by
  unfold collideTAFull at h
  split at h
  · cases h
  · dsimp only at h
    split at h
    · injection h with h; subst h; exact ⟨.refl _, .refl _⟩
    · obtain ⟨d, _, e⟩ := Res.bind_ok h
      exact ta_only e

theorem sk_only {c mnzl ma mb delta phi : ℝ} {pa pb : Part ℝ} {q : Part ℝ × Part ℝ} (h : collideSK c mnzl ma mb delta phi pa pb = .ok q) :
    OnlyVel pa q.1 ∧ OnlyVel pb q.2 := by
  unfold collideSK at h
  split at h
  · cases h
  · split at h <;>
    · obtain ⟨r, _, e⟩ := Res.bind_ok h
      cases r with
      | none => injection e with e; subst e; exact ⟨.refl _, .refl _⟩
      | some v => injection e with e; subst e; exact ⟨⟨_, rfl⟩, ⟨_, rfl⟩⟩

theorem p12_only {c mnzl ma mb s12 U phi Ud : ℝ} {normal : Bool} {pa pb : Part ℝ} {q : Part ℝ × Part ℝ}
    (h : collideP12 c mnzl ma mb s12 U phi Ud normal pa pb = .ok q) : OnlyVel pa q.1 ∧ OnlyVel pb q.2 := by
  unfold collideP12 at h
  split at h
  · cases h
  · split at h <;>
    · obtain ⟨r, _, e⟩ := Res.bind_ok h
      cases r with
      | none => injection e with e; subst e; exact ⟨.refl _, .refl _⟩
      | some v =>
        injection e with e; subst e
        dsimp only
        constructor <;> split_ifs <;> first | exact .refl _ | exact ⟨_, rfl⟩

theorem single_only {M : Method} {P : Phys} {a : Args} {r : Rnd} {pa pb : Part ℝ} {q : Part ℝ × Part ℝ} (h : single M P a r pa pb = .ok q) :
    OnlyVel pa q.1 ∧ OnlyVel pb q.2 := by
  cases M with
  | ta77s => exact taFull_only h
  | sk98 => exact sk_only h
  | p12 => exact p12_only h

/-- Only velocities of particles in a set differ. -/
def Moved (S : Nat → Prop) (h h' : Heap) : Prop := (∀ s, OnlyVel (h s) (h' s)) ∧ ∀ s, ¬ S s → h' s = h s

theorem Moved.refl (S : Nat → Prop) (h : Heap) : Moved S h h := ⟨fun _ => .refl _, fun _ _ => rfl⟩
theorem Moved.trans {S : Nat → Prop} {h h' h'' : Heap} (a : Moved S h h') (b : Moved S h' h'') : Moved S h h'' :=
  ⟨fun s => (a.1 s).trans (b.1 s), fun s n => (b.2 s n).trans (a.2 s n)⟩
theorem Moved.mono {S T : Nat → Prop} {h h' : Heap} (a : Moved S h h') (st : ∀ s, S s → T s) : Moved T h h' :=
  ⟨a.1, fun s n => a.2 s fun k => n (st s k)⟩

theorem hit_moved {M : Method} {P : Phys} {rnd : Nat → Rnd} {a : Args} {x y : Option Nat} {s s' : St} {S : Nat → Prop}
    (hx : ∀ t, x = some t → S t) (hy : ∀ t, y = some t → S t) (h : hit M P rnd a x y s = .ok s') : Moved S s.1 s'.1 := by
  unfold hit at h
  cases x with
  | none => cases h
  | some x =>
    cases y with
    | none => cases h
    | some y =>
      obtain ⟨q, e, e'⟩ := Res.bind_ok h
      injection e' with e'
      subst e'
      have o := single_only e
      refine ⟨fun t => ?_, fun t n => ?_⟩
      · show OnlyVel _ (put (put s.1 x q.1) y q.2 t)
        by_cases c : t = y
        · subst c; rw [put_self]; exact o.2
        · rw [put_other _ _ c]
          by_cases c' : t = x
          · subst c'; rw [put_self]; exact o.1
          · rw [put_other _ _ c']; exact .refl _
      · show put (put s.1 x q.1) y q.2 t = _
        rw [put_other _ _ (fun k => n (by rw [k]; exact hy y rfl)), put_other _ _ (fun k => n (by rw [k]; exact hx x rfl))]

theorem pair_moved {M : Method} {P : Phys} {rnd : Nat → Rnd} {K : Kinds} {ne ni debye : ℝ} {els ions : List Nat} {pr : Pair} {s s' : St}
    (h : onePair M P rnd K ne ni debye els ions pr s = .ok s') : Moved (fun t => t ∈ els ∨ t ∈ ions) s.1 s'.1 := by
  cases pr with
  | ii a b => exact hit_moved (fun t e => .inr (List.mem_of_getElem? e)) (fun t e => .inr (List.mem_of_getElem? e)) h
  | ee a b => exact hit_moved (fun t e => .inl (List.mem_of_getElem? e)) (fun t e => .inl (List.mem_of_getElem? e)) h
  | ei a b => exact hit_moved (fun t e => .inl (List.mem_of_getElem? e)) (fun t e => .inr (List.mem_of_getElem? e)) h

theorem cell_moved {M : Method} {P : Phys} {rnd : Nat → Rnd} {K : Kinds} {g : Place} {els ions : Nat → Nat → List Nat} {before : Heap} {c : Nat × Nat} {s s' : St}
    (h : collideCell M P rnd K g els ions before c s = .ok s') : Moved (fun t => t ∈ els c.1 c.2 ∨ t ∈ ions c.1 c.2) s.1 s'.1 := by
  unfold collideCell at h
  obtain ⟨d, _, e⟩ := Res.bind_ok h
  cases d with
  | none => injection e with e; subst e; exact .refl _ _
  | some debye =>
    exact loop_keeps (fun s' : St => Moved (fun t => t ∈ els c.1 c.2 ∨ t ∈ ions c.1 c.2) s.1 s'.1) _ _
      (fun pr _ a b ha hb => ha.trans (pair_moved hb)) _ _ (.refl _ _) e

theorem collide_moved {M : Method} {P : Phys} {rnd : Nat → Rnd} {K : Kinds} {g : Place} {els ions : Nat → Nat → List Nat} {h : Heap} {s' : St}
    (e : collide M P rnd K g els ions h = .ok s') :
    Moved (fun t => ∃ c ∈ visited K.massEl K.massIon g.nr g.nz (fun i j => (els i j).map h) (fun i j => (ions i j).map h),
      t ∈ els c.1 c.2 ∨ t ∈ ions c.1 c.2) h s'.1 := by
  refine loop_keeps (fun s' : St => Moved _ h s'.1) _ _ (fun c hc a b ha hb => ha.trans ((cell_moved hb).mono fun t ht => ⟨c, hc, ht⟩)) _ _ (.refl _ _) e

/-! ### The lists -/

theorem boundTo_mem {h : Heap} {ion : Bool} {sp : List Species} {r z t : Nat} (m : t ∈ boundTo h ion sp r z) :
    (∃ s ∈ sp, t ∈ s.particles) ∧ (h t).cellR = r ∧ (h t).cellZ = z := by
  unfold boundTo at m
  rw [List.mem_filter, List.mem_flatMap] at m
  obtain ⟨⟨s, hs, ht⟩, c⟩ := m
  simp only [Bool.and_eq_true, beq_iff_eq] at c
  exact ⟨⟨s, (List.mem_filter.mp hs).1, ht⟩, c⟩

theorem boundTo_nodup {h : Heap} {ion : Bool} {sp : List Species} (hn : (sp.flatMap Species.particles).Nodup) (r z : Nat) :
    (boundTo h ion sp r z).Nodup := by
  unfold boundTo
  apply List.Nodup.filter
  exact List.Nodup.sublist (List.Sublist.flatMap List.filter_sublist _) hn

theorem boundTo_kinds {h : Heap} {sp : List Species} (hn : (sp.flatMap Species.particles).Nodup) {r z r' z' t : Nat}
    (a : t ∈ boundTo h false sp r z) (b : t ∈ boundTo h true sp r' z') : False := by
  unfold boundTo at a b
  have a := (List.mem_filter.mp a).1
  have b := (List.mem_filter.mp b).1
  have pm := (List.filter_append_perm (fun s : Species => (s.name == "ions" || s.name == "Ions") == true) sp).flatMap_right Species.particles
  have nd := pm.symm.nodup hn
  rw [List.flatMap_append] at nd
  refine (List.nodup_append.mp nd).2.2 t b t ?_ rfl
  refine cast ?_ a
  congr 2
  apply List.filter_congr
  intro s _
  cases (s.name == "ions" || s.name == "Ions") <;> rfl

/-- What sorting and shuffling leave, for particles bound to cells of the domain. -/
theorem sorted_perm {g : Place} {sp : List Species} {h : Heap} {m m' : Maps} {els ions : Nat → Nat → List Nat}
    (hs : g.r0 + g.nr + 4 < 2 ^ 31 ∧ g.z0 + g.nz + 4 < 2 ^ 31) (hb : ∀ s ∈ sp, ∀ p ∈ s.particles, Bound g.r0 g.z0 g.nr g.nz (h p))
    (hm : m.Shape g.nr g.nz) (S : Sorted g sp h m m' els ions) {i j : Nat} (hi : i < g.nr) (hj : j < g.nz) :
    (ions i j).Perm (boundTo h true sp (g.r0 + i) (g.z0 + j)) ∧ (els i j).Perm (boundTo h false sp (g.r0 + i) (g.z0 + j)) := by
  obtain ⟨m1, e, sh, get⟩ := S
  obtain ⟨m2, e', pp⟩ := C41_partial h hs sp hb hm
  rw [e] at e'
  injection e' with e'
  subst e'
  obtain ⟨⟨l, g1, p1⟩, ⟨k, g2, p2⟩⟩ := (pp m' sh).2 i j hi hj
  have gg := get i j hi hj
  rw [gg.2] at g1
  rw [gg.1] at g2
  injection g1 with g1
  injection g2 with g2
  subst g1 g2
  exact ⟨p1, p2⟩

theorem sorted_shape {g : Place} {sp : List Species} {h : Heap} {m m' : Maps} {els ions : Nat → Nat → List Nat}
    (hs : g.r0 + g.nr + 4 < 2 ^ 31 ∧ g.z0 + g.nz + 4 < 2 ^ 31) (hb : ∀ s ∈ sp, ∀ p ∈ s.particles, Bound g.r0 g.z0 g.nr g.nz (h p))
    (hm : m.Shape g.nr g.nz) (S : Sorted g sp h m m' els ions) : m'.Shape g.nr g.nz := by
  obtain ⟨m1, e, sh, get⟩ := S
  obtain ⟨m2, e', pp⟩ := C41_partial h hs sp hb hm
  rw [e] at e'
  injection e' with e'
  subst e'
  exact (pp m' sh).1

theorem sorted_apart {g : Place} {sp : List Species} {h : Heap} {m m' : Maps} {els ions : Nat → Nat → List Nat}
    (hs : g.r0 + g.nr + 4 < 2 ^ 31 ∧ g.z0 + g.nz + 4 < 2 ^ 31) (hn : (sp.flatMap Species.particles).Nodup)
    (hb : ∀ s ∈ sp, ∀ p ∈ s.particles, Bound g.r0 g.z0 g.nr g.nz (h p))
    (hm : m.Shape g.nr g.nz) (S : Sorted g sp h m m' els ions) : Apart g els ions := by
  have pp := fun {i j} => sorted_perm hs hb hm S (i := i) (j := j)
  refine ⟨fun i j hi hj => (pp hi hj).2.symm.nodup (boundTo_nodup hn _ _), fun i j hi hj => (pp hi hj).1.symm.nodup (boundTo_nodup hn _ _), ?_, ?_, ?_⟩
  · intro i j i' j' hi hj hi' hj' n t a b
    have a := (boundTo_mem ((pp hi hj).2.mem_iff.mp a)).2
    have b := (boundTo_mem ((pp hi' hj').2.mem_iff.mp b)).2
    apply n
    rw [Prod.mk.injEq]
    omega
  · intro i j i' j' hi hj hi' hj' n t a b
    have a := (boundTo_mem ((pp hi hj).1.mem_iff.mp a)).2
    have b := (boundTo_mem ((pp hi' hj').1.mem_iff.mp b)).2
    apply n
    rw [Prod.mk.injEq]
    omega
  · intro i j i' j' hi hj hi' hj' t a b
    exact boundTo_kinds hn ((pp hi hj).2.mem_iff.mp a) ((pp hi' hj').1.mem_iff.mp b)

/-! ### Pairs are in range -/

theorem float32_near {q : ℚ} (hq : 1 ≤ q) : 1 ≤ float32 q ∧ |float32 q - q| * 2 ^ 24 ≤ q := by
  have f1 : 1 ≤ ⌊q⌋ := Int.le_floor.mpr (by exact_mod_cast hq)
  have f2 : (⌊q⌋ : ℚ) ≤ q := Int.floor_le q
  have lg := Nat.log2_self_le (n := ⌊q⌋.toNat) (by omega)
  have lq : (2 : ℚ) ^ Nat.log2 ⌊q⌋.toNat ≤ q := by
    have : ((2 ^ Nat.log2 ⌊q⌋.toNat : Nat) : ℚ) ≤ (⌊q⌋.toNat : ℚ) := by exact_mod_cast lg
    have c : ((⌊q⌋.toNat : Nat) : ℚ) = (⌊q⌋ : ℚ) := by
      have : ((⌊q⌋.toNat : Nat) : Int) = ⌊q⌋ := by omega
      exact_mod_cast this
    rw [c] at this
    push_cast at this
    linarith
  have p1 : (1 : ℚ) ≤ 2 ^ Nat.log2 ⌊q⌋.toNat := one_le_pow₀ (by norm_num)
  unfold float32
  dsimp only
  generalize (2 : ℚ) ^ Nat.log2 ⌊q⌋.toNat = P at *
  have u0 : 0 < P / 2 ^ 23 := by positivity
  generalize hu : P / 2 ^ 23 = u at *
  have n1 : ((⌊q / u⌋ : Int) : ℚ) ≤ q / u := Int.floor_le _
  have n2 : q / u < ⌊q / u⌋ + 1 := Int.lt_floor_add_one _
  have big : (2 ^ 23 : Int) ≤ ⌊q / u⌋ := by
    apply Int.le_floor.mpr
    rw [le_div_iff₀ u0, ← hu]
    push_cast
    field_simp
    linarith
  have bigq : (2 ^ 23 : ℚ) ≤ (⌊q / u⌋ : ℚ) := by exact_mod_cast big
  have qu : q = q / u * u := by field_simp
  have Pu : P = 2 ^ 23 * u := by rw [← hu]; field_simp
  generalize hr : (if q / u - ↑⌊q / u⌋ < 1 / 2 then ⌊q / u⌋ else if 1 / 2 < q / u - ↑⌊q / u⌋ then ⌊q / u⌋ + 1
    else if ⌊q / u⌋ % 2 = 0 then ⌊q / u⌋ else ⌊q / u⌋ + 1) = r
  have key : (⌊q / u⌋ : ℚ) ≤ r ∧ |(r : ℚ) - q / u| ≤ 1 / 2 := by
    rw [← hr]
    split_ifs with h1 h2 h3
    · exact ⟨le_refl _, by rw [abs_le]; constructor <;> linarith⟩
    · refine ⟨by push_cast; linarith, by push_cast; rw [abs_le]; constructor <;> linarith⟩
    · exact ⟨le_refl _, by rw [abs_le]; constructor <;> linarith⟩
    · refine ⟨by push_cast; linarith, by push_cast; rw [abs_le]; constructor <;> linarith⟩
  constructor
  · have : (2 : ℚ) ^ 23 * u ≤ r * u := mul_le_mul_of_nonneg_right (bigq.trans key.1) u0.le
    linarith
  · have : (r : ℚ) * u - q = (r - q / u) * u := by rw [sub_mul, ← qu]
    rw [this, abs_mul, abs_of_pos u0]
    have := mul_le_mul_of_nonneg_right key.2 u0.le
    nlinarith

theorem unequal_range {fl : ℚ → ℚ} {small large : Nat} (h0 : 0 < small) (h1 : 1 ≤ fl ((large : ℚ) / small))
    (he : |fl ((large : ℚ) / small) - (large : ℚ) / small| * small < 1) :
    ∀ p ∈ unequalPairs fl small large, p.1 < small ∧ p.2 < large := by
  have sp : (0 : ℚ) < small := by exact_mod_cast h0
  unfold unequalPairs
  dsimp only
  generalize fl ((large : ℚ) / small) = q at *
  have c1 : 1 ≤ ⌊q⌋ := Int.le_floor.mpr (by exact_mod_cast h1)
  have cr0 : 0 ≤ q - ⌊q⌋ := by linarith [Int.floor_le q]
  have cr1 : q - ⌊q⌋ < 1 := by linarith [Int.lt_floor_add_one q]
  obtain ⟨c, hc⟩ : ∃ c : Nat, ⌊q⌋ = c := ⟨⌊q⌋.toNat, by omega⟩
  rw [hc] at c1 cr0 cr1 ⊢
  generalize hx : q - ((c : Int) : ℚ) = x at *
  have qe : q = c + x := by rw [← hx]; push_cast; ring
  have cpos : 1 ≤ c := by omega
  have cq : (1 : ℚ) ≤ c := by exact_mod_cast cpos
  push_cast
  simp only [Int.cast_natCast, Int.toNat_natCast]
  -- the three whole numbers
  have a0 : 0 ≤ ((c : ℚ) + 1) * x * small := by positivity
  have b0 : 0 ≤ x * small := by positivity
  have d0 : 0 ≤ (c : ℚ) * (1 - x) * small := by have : 0 ≤ 1 - x := by linarith
                                                positivity
  obtain ⟨A, hA⟩ : ∃ A : Nat, ⌊((c : ℚ) + 1) * x * small⌋ = A := ⟨_, (Int.toNat_of_nonneg (Int.floor_nonneg.mpr a0)).symm⟩
  obtain ⟨B, hB⟩ : ∃ B : Nat, ⌊x * small⌋ = B := ⟨_, (Int.toNat_of_nonneg (Int.floor_nonneg.mpr b0)).symm⟩
  obtain ⟨D, hD⟩ : ∃ D : Nat, ⌊(c : ℚ) * (1 - x) * small⌋ = D := ⟨_, (Int.toNat_of_nonneg (Int.floor_nonneg.mpr d0)).symm⟩
  have fA := Int.floor_le (((c : ℚ) + 1) * x * small)
  have fB := Int.floor_le (x * small)
  have fB' := Int.lt_floor_add_one (x * small)
  have fD := Int.floor_le ((c : ℚ) * (1 - x) * small)
  rw [hA] at fA
  rw [hB] at fB fB'
  rw [hD] at fD
  rw [hA, hB, hD]
  push_cast at fA fB fB' fD
  simp only [Int.toNat_natCast]
  have tot : A + D ≤ large := by
    have le : |q - (large : ℚ) / small| * small = |q * small - large| := by
      rw [← abs_of_pos sp, ← abs_mul, abs_of_pos sp, sub_mul, div_mul_cancel₀ _ sp.ne']
    rw [le] at he
    have := (abs_lt.mp he).2
    have : (A + D : ℚ) < large + 1 := by rw [qe] at this; nlinarith
    have : A + D < large + 1 := by exact_mod_cast this
    omega
  intro p hp
  rcases List.mem_append.mp hp with hp | hp
  · obtain ⟨f, hf, rfl⟩ := List.mem_map.mp hp
    rw [List.mem_range] at hf
    dsimp only
    refine ⟨?_, by omega⟩
    rw [Nat.div_lt_iff_lt_mul (by omega)]
    have : (A : ℚ) ≤ (small * (c + 1) : Nat) := by push_cast; nlinarith
    have : A ≤ small * (c + 1) := by exact_mod_cast this
    omega
  · obtain ⟨f, hf, rfl⟩ := List.mem_map.mp hp
    rw [List.mem_range] at hf
    dsimp only
    refine ⟨?_, by omega⟩
    have BS : (B : ℚ) < small := by nlinarith
    have BS : B < small := by exact_mod_cast BS
    have : f / c < small - B := by
      rw [Nat.div_lt_iff_lt_mul (by omega)]
      have fq : (f : ℚ) < c * (1 - x) * small := lt_of_lt_of_le (by exact_mod_cast hf) fD
      have : (f : ℚ) < ((small - B) * c : Nat) := by
        push_cast [Nat.cast_sub BS.le]
        nlinarith
      exact_mod_cast this
    omega

/-- The pairs of a cell with fewer than `2^24` particles refer to particles of the cell. -/
theorem cellPairs_range {ni ne : Nat} (hi : ni < 2 ^ 24) (he : ne < 2 ^ 24) :
    ∀ p ∈ cellPairs float32 ni ne, match p with
      | .ii a b => a < ni ∧ b < ni
      | .ee a b => a < ne ∧ b < ne
      | .ei a b => a < ne ∧ b < ni := by
  have like := fun n => (C69_like n).1
  have un : ∀ small large : Nat, 0 < small → small < large → large < 2 ^ 24 → ∀ p ∈ unequalPairs float32 small large, p.1 < small ∧ p.2 < large := by
    intro small large h0 h1 h2
    have sp : (0 : ℚ) < small := by exact_mod_cast h0
    have q1 : (1 : ℚ) ≤ (large : ℚ) / small := by rw [le_div_iff₀ sp]; have : (small : ℚ) ≤ large := by exact_mod_cast h1.le
                                                  linarith
    have nr := float32_near q1
    refine unequal_range h0 nr.1 ?_
    have l2 : (large : ℚ) < 2 ^ 24 := by exact_mod_cast h2
    have := mul_le_mul_of_nonneg_right nr.2 sp.le
    rw [div_mul_cancel₀ _ sp.ne'] at this
    nlinarith
  intro p hp
  unfold cellPairs at hp
  simp only [List.mem_append] at hp
  rcases hp with (((((hp | hp) | hp) | hp) | hp) | hp) | hp <;> split_ifs at hp with c <;> (try (simp at hp; done))
  · obtain ⟨x, hx, rfl⟩ := List.mem_map.mp hp
    exact ⟨(like _ x hx).1, (like _ x hx).2.1⟩
  · obtain ⟨x, hx, rfl⟩ := List.mem_map.mp hp
    exact ⟨(like _ x hx).1, (like _ x hx).2.1⟩
  · obtain ⟨x, hx, rfl⟩ := List.mem_map.mp hp
    exact ⟨(like _ x hx).1, (like _ x hx).2.1⟩
  · obtain ⟨x, hx, rfl⟩ := List.mem_map.mp hp
    exact ⟨(like _ x hx).1, (like _ x hx).2.1⟩
  · obtain ⟨x, hx, rfl⟩ := List.mem_map.mp hp
    rw [List.mem_range] at hx
    exact ⟨hx, c ▸ hx⟩
  · obtain ⟨x, hx, rfl⟩ := List.mem_map.mp hp
    exact un _ _ c.2 c.1 hi x hx
  · obtain ⟨x, hx, rfl⟩ := List.mem_map.mp hp
    have := un _ _ c.2 c.1 he x hx
    exact ⟨this.2, this.1⟩

/-! ### TA77S never fails -/

theorem coulomb_pos (k : Const) (ma mb debye v : ℝ) : 0 < coulombLog k ma mb debye v :=
  lt_of_lt_of_le two_pos (le_max_left _ _)

theorem variance_pos {k : Const} {dt ma mb qa qb na nb debye u : ℝ} (hpi : 0 < k.pi) (he : k.eps ≠ 0) (hdt : 0 < dt) (hma : 0 < ma) (hmb : 0 < mb)
    (hqa : qa ≠ 0) (hqb : qb ≠ 0) (hna : 0 < na) (hnb : 0 < nb) (hu : 0 < u) : 0 < taVariance k dt ma mb qa qb na nb debye u := by
  unfold taVariance
  have := coulomb_pos k ma mb debye u
  have := lt_min hna hnb
  dsimp only
  positivity

theorem taFull_ok {k : Const} {dt ma mb qa qb na nb debye n phi dzeta : ℝ} {pa pb : Part ℝ} (hpi : 0 < k.pi) (he : k.eps ≠ 0) (hdt : 0 < dt)
    (hma : 0 < ma) (hmb : 0 < mb) (hqa : qa ≠ 0) (hqb : qb ≠ 0) (hna : 0 < na) (hnb : 0 < nb) (ha : 0 < pa.weight) (hb : 0 < pb.weight) :
    ∃ q, collideTAFull k dt ma mb qa qb na nb debye n phi dzeta pa pb = .ok q := by
  have nz : ¬ (pb.weight = 0 ∨ pa.weight = 0 ∨ ma = 0 ∨ mb = 0 ∨ ma + mb = 0) := by
    rintro (h | h | h | h | h) <;> linarith
  unfold collideTAFull
  rw [if_neg nz]
  dsimp only
  by_cases c : speedBetween (vel pa) (vel pb) = 0
  · rw [if_pos c]; exact ⟨_, rfl⟩
  · rw [if_neg c]
    have u0 : 0 < speedBetween (vel pa) (vel pb) := lt_of_le_of_ne (Real.sqrt_nonneg _) (Ne.symm c)
    have v0 : 0 < (if pa.weight / pb.weight ≤ 1 then taVariance k dt ma mb qa qb na nb debye (speedBetween (vel pa) (vel pb))
        else taVariance k dt mb ma qb qa nb na debye (speedBetween (vel pa) (vel pb))) := by
      split_ifs
      · exact variance_pos hpi he hdt hma hmb hqa hqb hna hnb u0
      · exact variance_pos hpi he hdt hmb hma hqb hqa hnb hna u0
    unfold normalDraw
    rw [if_pos (Real.sqrt_pos.mpr v0), Res.ok_bind]
    unfold collideTA
    rw [if_neg nz]
    dsimp only
    split_ifs <;> exact ⟨_, rfl⟩

theorem amountTot_pos {l : List (Part ℝ)} (hw : ∀ p ∈ l, 0 < p.weight) (hl : l ≠ []) : 0 < amountTot l := by
  have : amountTot l = W l := wsum_eq _ l
  rw [this]
  exact W_pos hw hl

theorem density_pos {k : Const} {dr dz : ℝ} {r0 i : Nat} {l : List (Part ℝ)} (hpi : 0 < k.pi) (hdr : 0 < dr) (hdz : 0 < dz)
    (hw : ∀ p ∈ l, 0 < p.weight) (hl : l ≠ []) : 0 < cellDensity k dr dz r0 i l := by
  unfold cellDensity
  have := amountTot_pos hw hl
  positivity

end Coll
end Pico
