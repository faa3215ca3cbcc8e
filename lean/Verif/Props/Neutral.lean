import Verif.Spec.Neutral
import Verif.Props.PicStart
import Verif.Props.PicLaws

/-! Property C114: a neutral plasma starts without charges, and its fields belong to its charges for the whole run. -/

set_option linter.unusedSimpArgs false
set_option linter.unusedVariables false
set_option linter.unusedSectionVars false

namespace Pico
namespace Pic

open SMB Yee

/-! ### Places and weights do not depend on the species -/

/-- Place of a particle. -/
def spot (p : Part ℝ) : ℝ × ℝ := (p.posR, p.posZ)

/-- Place and weight of a particle. -/
def mark (p : Part ℝ) : ℝ × ℝ × ℝ := (p.posR, p.posZ, p.weight)

theorem vSum_spot (pi : ℝ) (g : Geom ℝ) {qs qs' : List (Part ℝ)} (e : qs.map spot = qs'.map spot) : Place.vSum pi g qs = Place.vSum pi g qs' := by
  have : ∀ (l : List (Part ℝ)) (s : ℝ), l.foldl (fun s p => s + Place.volOf pi g p.posR) s = (l.map spot).foldl (fun s p => s + Place.volOf pi g p.1) s := by
    intro l
    induction l with
    | nil => intro s; rfl
    | cons a l ih => intro s; exact ih _
  unfold Place.vSum
  rw [this, this, e]

theorem weight_spot {pi : ℝ} {g : Geom ℝ} {w : Part.Walls} {a : Place.Area} {d0 d1 : ℝ} {n : Nat} {qs qs' ps ps' : List (Part ℝ)}
    (e : qs.map spot = qs'.map spot) (h : Place.setWeight pi g w a d0 d1 n qs = .ok ps) (h' : Place.setWeight pi g w a d0 d1 n qs' = .ok ps') :
    ps.map mark = ps'.map mark := by
  unfold Place.setWeight at h h'
  have em : qs.isEmpty = qs'.isEmpty := by
    rw [← List.isEmpty_map (f := spot), e, List.isEmpty_map]
  rw [vSum_spot pi g e, em] at h
  split_ifs at h h' with c1 c2
  · obtain rfl := Res.ok.inj h
    obtain rfl := Res.ok.inj h'
    rfl
  · obtain rfl := Res.ok.inj h
    obtain rfl := Res.ok.inj h'
    rw [List.map_map, List.map_map]
    have k := congrArg (List.map fun q : ℝ × ℝ => (q.1, q.2, Place.nTotal pi g w a d0 d1 / n * (Place.volOf pi g q.1 / (Place.vSum pi g qs' / n)))) e
    rw [List.map_map, List.map_map] at k
    exact k

theorem amount_det {X : Setup} {i j : Nat} {s s' : Species} (ea : s.amount = s'.amount) {n n' : Nat} (h : Amount X i j s n) (h' : Amount X i j s' n') : n = n' := by
  obtain ⟨_, h⟩ := h
  obtain ⟨_, h'⟩ := h'
  rw [ea] at h
  cases e : X.spatial <;> rw [e] at h h' <;> dsimp only at h h'
  · rw [h, h']
  · rw [h, h']
  · exact While.det h h'
  · exact While.det h h'

theorem placed_same {X : Setup} {i j : Nat} {s s' : Species} (el : s.left = s'.left) (er : s.right = s'.right) (hr : X.spatial ≠ .random) {n : Nat}
    (hn : n < 2 ^ 31 ∨ X.spatial ≠ .flat) {ps ps' : List (Part ℝ)} (h : Placed X i j s n ps) (h' : Placed X i j s' n ps') : ps.map mark = ps'.map mark := by
  have e0 : leftOf X i j s = leftOf X i j s' := by unfold leftOf; rw [el, er]
  have e1 : rightOf X i j s = rightOf X i j s' := by unfold rightOf; rw [el, er]
  unfold Placed at h h'
  rw [e0, e1] at h
  cases e : X.spatial <;> rw [e] at h h' <;> dsimp only at h h'
  · obtain ⟨ur, uz, f, h⟩ := h
    obtain ⟨ur', uz', f', h'⟩ := h'
    have hn : n < 2 ^ 31 := hn.resolve_right (fun k => k e)
    refine weight_spot ?_ h h'
    unfold Place.random
    rw [List.map_map, List.map_map]
    apply List.map_congr_left
    intro k hk
    have hk := List.mem_range.mp hk
    have q1 := (Rand.C33_value (K := ℝ) (b := 13) (by norm_num) k (by omega)).2.1
    have q2 := (Rand.C33_value (K := ℝ) (b := 11) (by norm_num) (n - 1 - k) (by omega)).2.1
    have u1 : ur k = ur' k := (q1 _ (by exact_mod_cast (f k hk).1)).trans (q1 _ (by exact_mod_cast (f' k hk).1)).symm
    have u2 : uz k = uz' k := (q2 _ (by exact_mod_cast (f k hk).2)).trans (q2 _ (by exact_mod_cast (f' k hk).2)).symm
    show spot (Place.randomOne s.id _ _ _ _ _ _ (ur k) (uz k)) = spot (Place.randomOne s'.id _ _ _ _ _ _ (ur' k) (uz' k))
    rw [u1, u2]
    rfl
  · exact absurd e hr
  · obtain ⟨qs, c, h⟩ := h
    obtain ⟨qs', c', h'⟩ := h'
    refine weight_spot ?_ h h'
    unfold Place.centered at c c'
    dsimp only at c c'
    split_ifs at c c'
    obtain rfl := Res.ok.inj c
    obtain rfl := Res.ok.inj c'
    simp only [List.map_flatMap, List.map_map]
    rfl
  · obtain ⟨qs, c0, c, h⟩ := h
    obtain ⟨qs', c0', c', h'⟩ := h'
    refine weight_spot ?_ h h'
    by_cases z : n = 0
    · rw [c0 z, c0' z]
    · obtain ⟨rs, zs, r1, r2, rfl⟩ := c z
      obtain ⟨rs', zs', r1', r2', rfl⟩ := c' z
      obtain rfl := Place.forUp_det r1 r1'
      obtain rfl := Place.forUp_det r2 r2'
      simp only [List.map_flatMap, List.map_map]
      rfl

theorem bind_mark {g : Geom ℝ} {p q : Part ℝ} (e : Part.bindCell g p = .ok q) : mark q = mark p := by
  unfold Part.bindCell at e
  obtain ⟨_, _, e⟩ := Res.bind_ok e
  obtain ⟨_, _, e⟩ := Res.bind_ok e
  obtain rfl := Res.ok.inj e
  rfl

/-- Velocities and cell numbers change neither places nor weights. -/
theorem distributed_mark {X : Setup} {i j : Nat} {s : Species} {out : List (Part ℝ)} (d : Distributed X i j s out) :
    ∃ n ps, Amount X i j s n ∧ Placed X i j s n ps ∧ out.map mark = ps.map mark := by
  obtain ⟨n, ps, qs, vs, h1, h2, h3, h4, h5, rfl⟩ := d
  refine ⟨n, ps, h1, h2, ?_⟩
  clear h2 h4
  induction h3 generalizing vs with
  | nil => simp
  | @cons p q ps qs e _ ih =>
    cases vs with
    | nil => simp at h5
    | cons u vs =>
      rw [List.zipWith_cons_cons, List.map_cons, List.map_cons, ih vs (by simpa using h5), ← bind_mark e]
      rfl

theorem distributed_same {X : Setup} (hr : X.spatial ≠ .random) {i j : Nat} {s s' : Species} (ea : s.amount = s'.amount) (el : s.left = s'.left)
    (er : s.right = s'.right) {out out' : List (Part ℝ)} (d : Distributed X i j s out) (d' : Distributed X i j s' out') :
    out.map mark = out'.map mark := by
  obtain ⟨n, ps, a, b, c⟩ := distributed_mark d
  obtain ⟨n', ps', a', b', c'⟩ := distributed_mark d'
  obtain rfl := amount_det ea a a'
  rw [c, c']
  refine placed_same el er hr ?_ b b'
  by_cases fl : X.spatial = .flat
  · left
    obtain ⟨⟨a0, a1⟩, a⟩ := a
    rw [fl] at a
    dsimp only at a
    rw [a, Nat.floor_lt a0]
    exact_mod_cast a1
  · exact .inr fl

/-! ### Sums over species -/

open Classical in
theorem sum_groups (q : Species → ℝ) (F : Species → ℝ) (l : List Species)
    (hF : ∀ s ∈ l, ∀ s' ∈ l, s.amount = s'.amount → s.left = s'.left → s.right = s'.right → F s = F s')
    (h : ∀ a b c : ℝ, ((l.filter fun s => s.amount = a ∧ s.left = b ∧ s.right = c).map q).sum = 0) : (l.map fun s => q s * F s).sum = 0 := by
  induction hn : l.length using Nat.strong_induction_on generalizing l with
  | _ n ih =>
    cases l with
    | nil => rfl
    | cons t l =>
      set k : Species → Bool := fun s => s.amount = t.amount ∧ s.left = t.left ∧ s.right = t.right with hk
      have kt : k t = true := by simp [hk]
      have split : ∀ m : List Species, (m.map fun s => q s * F s).sum =
          ((m.filter k).map fun s => q s * F s).sum + ((m.filter fun s => !k s).map fun s => q s * F s).sum := by
        intro m
        induction m with
        | nil => simp
        | cons s m ih =>
          cases c : k s
          · rw [List.filter_cons_of_neg (by simp [c]), List.filter_cons_of_pos (p := fun s => !k s) (by simp [c]), List.map_cons, List.map_cons, List.sum_cons,
              List.sum_cons, ih]
            ring
          · rw [List.filter_cons_of_pos c, List.filter_cons_of_neg (p := fun s => !k s) (by simp [c]), List.map_cons, List.map_cons, List.sum_cons,
              List.sum_cons, ih]
            ring
      have first : (((t :: l).filter k).map fun s => q s * F s).sum = 0 := by
        have : ((t :: l).filter k).map (fun s => q s * F s) = ((t :: l).filter k).map (fun s => q s * F t) := by
          apply List.map_congr_left
          intro s hs
          obtain ⟨m, c⟩ := List.mem_filter.mp hs
          have c := of_decide_eq_true c
          rw [hF s m t List.mem_cons_self c.1 c.2.1 c.2.2]
        rw [this, List.sum_map_mul_right, h t.amount t.left t.right, zero_mul]
      rw [split, first, zero_add]
      refine ih _ ?_ _ ?_ ?_ rfl
      · rw [← hn, List.filter_cons_of_neg (by simp [kt])]
        exact Nat.lt_succ_of_le (List.length_filter_le _ _)
      · intro s hs s' hs'
        exact hF s (List.mem_filter.mp hs).1 s' (List.mem_filter.mp hs').1
      · intro a b c
        rw [List.filter_filter]
        by_cases e : a = t.amount ∧ b = t.left ∧ c = t.right
        · obtain ⟨rfl, rfl, rfl⟩ := e
          rw [List.filter_eq_nil_iff.mpr]
          · rfl
          · intro s _ c
            simp only [hk, Bool.and_eq_true, decide_eq_true_eq, Bool.not_eq_true', decide_eq_false_iff_not] at c
            exact c.2 c.1
        · rw [← h a b c]
          congr 2
          apply List.filter_congr
          intro s _
          rw [Bool.eq_iff_iff]
          simp only [hk, Bool.and_eq_true, decide_eq_true_eq, Bool.not_eq_true', decide_eq_false_iff_not]
          constructor
          · exact fun c => c.1
          · intro c
            refine ⟨c, fun c' => e ⟨c.1 ▸ c'.1, c.2.1 ▸ c'.2.1, c.2.2 ▸ c'.2.2⟩⟩

/-- A sum over the particles of a domain that is linear in their charges. -/
theorem sum_neutral {X : Setup} (h : X.Sane) (nt : X.Neutral) {S : State} (st : Starts X S) {i j : Nat} (hi : i < X.env.domR) (hj : j < X.env.domZ)
    (G : List (Part ℝ) → ℝ) (G0 : G [] = 0)
    (hG : ∀ s ∈ X.species, ∀ s' ∈ X.species, s.amount = s'.amount → s.left = s'.left → s.right = s'.right → ∀ out out', Distributed X i j s out →
      Distributed X i j s' out' → G out = G out') :
    ((S.D i j).map fun sp => X.env.charge sp.id * G (sp.parts.map fun o => S.heap o.tag)).sum = 0 := by
  classical
  -- the list of a species
  let L : Nat → List (Part ℝ) := fun id => match (S.D i j).find? fun sp => sp.id = id with
    | some sp => sp.parts.map fun o => S.heap o.tag
    | none => []
  have nd : ((S.D i j).map Sp.id).Nodup := by rw [st.lists]; exact h.ids
  have hL : ∀ sp ∈ S.D i j, L sp.id = sp.parts.map fun o => S.heap o.tag := by
    intro sp hsp
    have : (S.D i j).find? (fun x => x.id = sp.id) = some sp := by
      cases f : (S.D i j).find? (fun x => x.id = sp.id) with
      | none =>
        have := List.find?_eq_none.mp f sp hsp
        simp at this
      | some x =>
        have m := List.mem_of_find?_eq_some f
        have e : x.id = sp.id := by simpa using List.find?_some f
        rw [List.inj_on_of_nodup_map nd m hsp e]
    simp only [L, this]
  have e1 : ((S.D i j).map fun sp => X.env.charge sp.id * G (sp.parts.map fun o => S.heap o.tag)) =
      ((S.D i j).map Sp.id).map fun id => X.env.charge id * G (L id) := by
    rw [List.map_map]
    apply List.map_congr_left
    intro sp hsp
    show _ = X.env.charge sp.id * G (L sp.id)
    rw [hL sp hsp]
  have sp_of : ∀ id ∈ X.species.map Species.id ++ X.beams, ∃ sp ∈ S.D i j, sp.id = id := by
    intro id hid
    rw [← st.lists i j] at hid
    exact List.mem_map.mp hid
  rw [e1, st.lists, List.map_append, List.sum_append]
  have e2 : ((X.beams.map fun id => X.env.charge id * G (L id))).sum = 0 := by
    apply List.sum_eq_zero
    intro x hx
    obtain ⟨id, hid, rfl⟩ := List.mem_map.mp hx
    obtain ⟨sp, m, rfl⟩ := sp_of id (List.mem_append_right _ hid)
    rw [hL sp m, st.beam i j hi hj sp m hid]
    show X.env.charge sp.id * G [] = 0
    rw [G0, mul_zero]
  rw [e2, add_zero, List.map_map]
  refine sum_groups (fun s => X.env.charge s.id) (fun s => G (L s.id)) X.species ?_ ?_
  · intro s hs s' hs' ea el er
    obtain ⟨sp, m, e⟩ := sp_of s.id (List.mem_append_left _ (List.mem_map_of_mem hs))
    obtain ⟨sp', m', e'⟩ := sp_of s'.id (List.mem_append_left _ (List.mem_map_of_mem hs'))
    rw [← e, ← e', hL sp m, hL sp' m']
    exact hG s hs s' hs' ea el er _ _ (st.plasma i j hi hj sp m s hs e.symm) (st.plasma i j hi hj sp' m' s' hs' e'.symm)
  · intro a l r
    exact nt a l r

theorem amount_zero {X : Setup} {i j : Nat} {s : Species} {n : Nat} {ps : List (Part ℝ)} (hp : Placed X i j s n ps) :
    (ps = [] ∨ n ≠ 0) := by
  by_cases z : ps = []
  · exact .inl z
  · right
    rintro rfl
    have key : ∀ {pi g w a d0 d1} {qs : List (Part ℝ)}, Place.setWeight pi g w a d0 d1 0 qs = .ok ps → False := by
      intro pi g w a d0 d1 qs e
      unfold Place.setWeight at e
      split_ifs at e with c1 c2
      · exact z (Res.ok.inj e).symm
      · exact c2 (.inl rfl)
    unfold Placed at hp
    cases e : X.spatial <;> rw [e] at hp <;> dsimp only at hp
    · obtain ⟨_, _, _, hp⟩ := hp
      exact key hp
    · exact key hp
    · obtain ⟨_, _, hp⟩ := hp
      exact key hp
    · obtain ⟨_, _, _, hp⟩ := hp
      exact key hp

/-- The total weight of a species in a domain. -/
theorem placed_total {X : Setup} (h : X.Sane) {i j : Nat} (hi : i < X.env.domR) (hj : j < X.env.domZ) {s : Species} (hs : s ∈ X.species) {n : Nat} {ps : List (Part ℝ)}
    (ha : Amount X i j s n) (hp : Placed X i j s n ps) : Place.totalWeight ps = if ps = [] then 0 else
      Place.nTotal X.env.e.pi (X.env.geom i j) (X.env.walls i j) (Place.whole (X.env.geom i j)) (leftOf X i j s) (rightOf X i j s) := by
  have band := placed_band h hi hj hs ha hp
  have G := geom_good h.chamber hi hj
  split_ifs with z
  · rw [z]; rfl
  · have n1 : 1 ≤ n := by have := (amount_zero hp).resolve_left z; omega
    have key : ∀ {qs : List (Part ℝ)}, Place.setWeight X.env.e.pi (X.env.geom i j) (X.env.walls i j) (Place.whole (X.env.geom i j)) (leftOf X i j s) (rightOf X i j s) n qs = .ok ps →
        Place.totalWeight ps = Place.nTotal X.env.e.pi (X.env.geom i j) (X.env.walls i j) (Place.whole (X.env.geom i j)) (leftOf X i j s) (rightOf X i j s) := by
      intro qs e
      have e' := e
      unfold Place.setWeight at e
      split_ifs at e with c1 c2
      · exact absurd (Res.ok.inj e).symm z
      · have pos : ∀ q ∈ qs, 0 < q.posR := by
          intro q hq
          have := band _ (by rw [← Res.ok.inj e]; exact List.mem_map_of_mem hq)
          have b := this.r1
          have dr := G.dr
          exact lt_of_lt_of_le (by positivity) b
        obtain ⟨ps', f, t, _⟩ := Place.sum_weights h.chamber.good.pi G.dr G.dz (X.env.walls i j) (Place.whole (X.env.geom i j)) (leftOf X i j s) (rightOf X i j s) n1
          (by rintro rfl; simp at c1) pos
        obtain rfl := Res.ok.inj (e'.symm.trans f)
        exact t
    unfold Placed at hp
    cases e : X.spatial <;> rw [e] at hp <;> dsimp only at hp
    · obtain ⟨_, _, _, hp⟩ := hp
      exact key hp
    · exact key hp
    · obtain ⟨_, _, hp⟩ := hp
      exact key hp
    · obtain ⟨_, _, _, hp⟩ := hp
      exact key hp

theorem total_mark {l l' : List (Part ℝ)} (e : l.map mark = l'.map mark) : Place.totalWeight l = Place.totalWeight l' := by
  have k := congrArg (fun x => (x.map fun q : ℝ × ℝ × ℝ => q.2.2).sum) e
  simp only [List.map_map] at k
  exact k

/-! ### The theorems -/

/-- **C114**, total charge: with every placement, random or not, the plasma that a neutral configuration puts into a domain has no charge. -/
theorem C114_total {X : Setup} (h : X.Sane) (nt : X.Neutral) {S : State} (st : Starts X S) {i j : Nat} (hi : i < X.env.domR) (hj : j < X.env.domZ) :
    domCharge X.env S i j = 0 := by
  have := sum_neutral h nt st hi hj Place.totalWeight rfl ?_
  · rw [← this]
    unfold domCharge Place.totalWeight
    congr 1
    apply List.map_congr_left
    intro sp _
    rw [List.sum_map_mul_left, List.map_map]
    rfl
  · intro s hs s' hs' ea el er out out' d d'
    by_cases hr : X.spatial = .random
    · obtain ⟨n, ps, a, b, c⟩ := distributed_mark d
      obtain ⟨n', ps', a', b', c'⟩ := distributed_mark d'
      obtain rfl := amount_det ea a a'
      rw [total_mark c, total_mark c', placed_total h hi hj hs a b, placed_total h hi hj hs' a' b']
      have e0 : leftOf X i j s = leftOf X i j s' := by unfold leftOf; rw [el, er]
      have e1 : rightOf X i j s = rightOf X i j s' := by unfold rightOf; rw [el, er]
      have len : ∀ {t : Species} {qs : List (Part ℝ)}, Placed X i j t n qs → (qs = [] ↔ n = 0) := by
        intro t qs hq
        constructor
        · intro e
          unfold Placed at hq
          rw [hr] at hq
          dsimp only at hq
          unfold Place.fill Place.setWeight at hq
          split_ifs at hq with c1 c2
          · unfold Place.random at c1
            simpa using c1
          · rw [e] at hq
            have := Res.ok.inj hq
            unfold Place.random at this
            simpa using this
        · intro e
          exact (amount_zero hq).resolve_right (fun k => k e)
      rw [e0, e1]
      simp only [len b, len b']
    · exact total_mark (distributed_same hr ea el er d d')

/-- **C114**, the start: with the default placement and with the two regular ones the particles of a neutral plasma stand upon each other,
so that there is no charge at any node of the grid, in every division of the chamber. -/
theorem C114_start {X : Setup} (h : X.Sane) (nt : X.Neutral) (hr : X.spatial ≠ .random) {S : State} (st : Starts X S) (x y : Int) :
    chargeAt X.env S x y = 0 := by
  unfold chargeAt
  refine Finset.sum_eq_zero fun i hi => Finset.sum_eq_zero fun j hj => ?_
  have hi := Finset.mem_range.mp hi
  have hj := Finset.mem_range.mp hj
  have := sum_neutral h nt st hi hj (fun l => ((l.map mark).map fun q => VB.nodeCharge (ctxOf X.env.p 0 X.env.e).g q.2.2 q.1 q.2.1 x y).sum) rfl ?_
  · rw [← this]
    congr 1
    apply List.map_congr_left
    intro sp _
    rw [← List.sum_map_mul_left, List.map_map, List.map_map]
    congr 1
    apply List.map_congr_left
    intro o _
    simp only [Function.comp_apply, mark, VB.nodeCharge]
    ring
  · intro s hs s' hs' ea el er out out' d d'
    rw [distributed_same hr ea el er d d']

theorem glue_zero {X : Setup} (h : X.Sane) {S : State} (st : Starts X S) {c : Comp} (c1 : c ≠ .eps) (c2 : c ≠ .sig) {x y : Int}
    (hl : X.env.p.logical x y) : glue X.env S.M c x y = 0 := by
  obtain ⟨i, j, a, b, ⟨hi, hj, _⟩, _, _, e⟩ := glue_cell h.chamber.div hl
  rw [e]
  exact solver_zero h (st.solver i j hi hj) c c1 c2 a b

/-- The medium of a new solver without layers. -/
theorem starts_medium {X : Setup} (h : X.Sane) (nl : X.layers = none) (e0 : X.eps0 ≠ 0) {S : State} (st : Starts X S) :
    Insulating X.env S ∧ NoCurrents X.env S := by
  refine ⟨fun i j x y hC => ?_, fun i j x y hC => ?_⟩
  · have e := st.solver i j hC.1 hC.2.1
    unfold newSolver at e
    rw [nl] at e
    rw [← Res.ok.inj e]
    exact ⟨e0, rfl⟩
  · have e := st.solver i j hC.1 hC.2.1
    exact ⟨solver_zero h e .jr (by decide) (by decide) x y, solver_zero h e .jz (by decide) (by decide) x y⟩

/-- C114, Gauss's law from the configuration on: in a closed chamber without absorbing layers, with the default deposition, the divergence of
`eps E` is at every inner node and in every step the density of the charges.  Full statement (false, see C100, C110): without the conditions that
all particles begin in their domains, none ends a step exactly at a border of its domain, and paths are in general position. -/
theorem C114_gauss_partial {X : Setup} (h : X.Sane) (nt : X.Neutral) (hr : X.spatial ≠ .random) (nl : X.layers = none)
    (e0 : X.eps0 ≠ 0) (mu : 0 < X.env.p.mu) (hk : Pusher.Relativistic X.env.kind) (hz : X.env.dist = VB.currentDistribution) {S : State} (st : Starts X S)
    (A : Alive X.env X.ids S) (n : Nat) (B : ∀ k T, k ≤ n → Run X.env S k T → NoBorder X.env T ∧ ∀ T', Step X.env T T' → GeneralPaths X.env T')
    {T T' : State} (r : Run X.env S n T) (s : Step X.env T T') (x y : Int) (hx : 1 ≤ x) (hy : 1 ≤ y) (hx' : x + 1 < X.env.p.nr) (hy' : y + 1 < X.env.p.nz) :
    divElectric X.env.p (displacement (glue X.env T'.M) .er) (displacement (glue X.env T'.M) .ez) x y = density X.env T x y := by
  obtain ⟨I, N⟩ := starts_medium h nl e0 st
  have g := C100_gauss_partial h.chamber mu hk hz h.ids A I N n B r s x y hx hy hx' hy'
  have d : density X.env S x y = 0 := by
    unfold density
    rw [C114_start h nt hr st, zero_div]
  have l1 : X.env.p.logical x y := by unfold Par.logical; omega
  have l2 : X.env.p.logical (x - 1) y := by unfold Par.logical; omega
  have l3 : X.env.p.logical x (y - 1) := by unfold Par.logical; omega
  have f : divElectric X.env.p (displacement (glue X.env S.M) .er) (displacement (glue X.env S.M) .ez) x y = 0 := by
    unfold divElectric displacement divergence
    rw [glue_zero h st (c := .er) (by decide) (by decide) l1, glue_zero h st (c := .er) (by decide) (by decide) l2,
      glue_zero h st (c := .ez) (by decide) (by decide) l1, glue_zero h st (c := .ez) (by decide) (by decide) l3]
    simp
  rw [d, f] at g
  linarith

/-- C114, Gauss's law on the axis, away from the first two columns. -/
theorem C114_gauss_axis_partial {X : Setup} (h : X.Sane) (nt : X.Neutral) (hr : X.spatial ≠ .random) (nl : X.layers = none)
    (e0 : X.eps0 ≠ 0) (mu : 0 < X.env.p.mu) (hk : Pusher.Relativistic X.env.kind) (hz : X.env.dist = VB.currentDistribution) {S : State} (st : Starts X S)
    (A : Alive X.env X.ids S) (n : Nat) (B : ∀ k T, k ≤ n → Run X.env S k T → NoBorder X.env T ∧ ∀ T', Step X.env T T' → GeneralPaths X.env T')
    {T T' : State} (r : Run X.env S n T) (s : Step X.env T T') (y : Int) (hy : 2 ≤ y) (hy' : y + 1 < X.env.p.nz) :
    divElectricAxis X.env.p (displacement (glue X.env T'.M) .er) (displacement (glue X.env T'.M) .ez) y = density X.env T 0 y := by
  obtain ⟨I, N⟩ := starts_medium h nl e0 st
  have g := C100_gauss_axis_partial h.chamber mu hk hz h.ids A I N n B r s y hy hy'
  have d : density X.env S 0 y = 0 := by
    unfold density
    rw [C114_start h nt hr st, zero_div]
  have n2 := h.chamber.div.r2
  have n1 := h.chamber.div.r1
  have l1 : X.env.p.logical 0 y := by unfold Par.logical; omega
  have l3 : X.env.p.logical 0 (y - 1) := by unfold Par.logical; omega
  have f : divElectricAxis X.env.p (displacement (glue X.env S.M) .er) (displacement (glue X.env S.M) .ez) y = 0 := by
    unfold divElectricAxis displacement divergenceAxis
    rw [glue_zero h st (c := .er) (by decide) (by decide) l1,
      glue_zero h st (c := .ez) (by decide) (by decide) l1, glue_zero h st (c := .ez) (by decide) (by decide) l3]
    simp
  rw [d, f] at g
  linarith

/-- C114 in an undivided chamber of which light travels at most half a cell per step: only the paths have to be in general position. -/
theorem C114_gauss_single_partial {X : Setup} (h : X.Sane) (hc : ∀ s ∈ X.species, X.Cold s) (nt : X.Neutral) (hr : X.spatial ≠ .random) (nl : X.layers = none)
    (e0 : X.eps0 ≠ 0) (mu : 0 < X.env.p.mu) (hk : Pusher.Relativistic X.env.kind) (hz : X.env.dist = VB.currentDistribution)
    (h1 : X.env.domR = 1) (h2 : X.env.domZ = 1) (half : HalfCell X.env) {S : State} (st : Starts X S) (n : Nat)
    (B : ∀ k T, k ≤ n + 1 → Run X.env S k T → 0 < k → GeneralPaths X.env T) {T T' : State} (r : Run X.env S n T) (s : Step X.env T T')
    (x y : Int) (hx : 1 ≤ x) (hy : 1 ≤ y) (hx' : x + 1 < X.env.p.nr) (hy' : y + 1 < X.env.p.nz) :
    divElectric X.env.p (displacement (glue X.env T'.M) .er) (displacement (glue X.env T'.M) .ez) x y = density X.env T x y := by
  have A := begun_single h.chamber h1 h2 (C110_start_partial h hc st)
  refine C114_gauss_partial h nt hr nl e0 mu hk hz st A n (fun k U hkn u => ⟨?_, fun U' v => B (k + 1) U' (by omega) (.step u v) (by omega)⟩) r s x y hx hy hx' hy'
  obtain ⟨S', a, b, _⟩ := C110_single h hc hk (.inl hz) h1 h2 half st k
  obtain rfl := (a U).mp u
  exact no_border h.chamber hk h1 h2 half b

/-! ### Failure -/

/-- The share of the cell whose node is the nearest one. -/
theorem line_near {dz z : ℝ} (hz : 0 < dz) : 0 < lineShare dz z ((⌊z / dz + 1 / 2⌋ : Int) : ℝ) := by
  set b := ⌊z / dz + 1 / 2⌋ with hb
  have b1 := Int.floor_le (z / dz + 1 / 2)
  have b2 := Int.lt_floor_add_one (z / dz + 1 / 2)
  rw [← hb] at b1 b2
  have e : z / dz * dz = z := div_mul_cancel₀ z hz.ne'
  have c1 : ((b : ℝ) - 1 / 2) * dz ≤ z := by rw [← e]; exact mul_le_mul_of_nonneg_right (by linarith) hz.le
  have c2 : z < ((b : ℝ) + 1 / 2) * dz := by rw [← e]; exact mul_lt_mul_of_pos_right (by linarith) hz
  unfold lineShare
  refine lt_max_of_lt_right (sub_pos.mpr ?_)
  refine max_lt (lt_min (by linarith) (by linarith)) (lt_min (by linarith) (by nlinarith))

theorem ring_near {dr r : ℝ} (hd : 0 < dr) (hr : dr / 2 ≤ r) : 0 < ringShare dr r ((⌊r / dr + 1 / 2⌋ : Int) : ℝ) := by
  set b := ⌊r / dr + 1 / 2⌋ with hb
  have b1 := Int.floor_le (r / dr + 1 / 2)
  have b2 := Int.lt_floor_add_one (r / dr + 1 / 2)
  rw [← hb] at b1 b2
  have e : r / dr * dr = r := div_mul_cancel₀ r hd.ne'
  have c1 : ((b : ℝ) - 1 / 2) * dr ≤ r := by rw [← e]; exact mul_le_mul_of_nonneg_right (by linarith) hd.le
  have c2 : r < ((b : ℝ) + 1 / 2) * dr := by rw [← e]; exact mul_lt_mul_of_pos_right (by linarith) hd
  unfold ringShare
  refine lt_max_of_lt_right (sub_pos.mpr ?_)
  have lo : 0 ≤ max (r - dr / 2) (((b : ℝ) - 1 / 2) * dr) := le_max_of_le_left (by linarith)
  have lt : max (r - dr / 2) (((b : ℝ) - 1 / 2) * dr) < min (r + dr / 2) (((b : ℝ) + 1 / 2) * dr) :=
    max_lt (lt_min (by linarith) (by linarith)) (lt_min (by linarith) (by nlinarith))
  exact pow_lt_pow_left₀ lt lo (by norm_num)

/-- More than two cells away there is no share. -/
theorem line_far {dz z z' : ℝ} (hz : 0 < dz) (far : 2 * dz ≤ |z - z'|) : lineShare dz z' ((⌊z / dz + 1 / 2⌋ : Int) : ℝ) = 0 := by
  set b := ⌊z / dz + 1 / 2⌋ with hb
  have b1 := Int.floor_le (z / dz + 1 / 2)
  have b2 := Int.lt_floor_add_one (z / dz + 1 / 2)
  rw [← hb] at b1 b2
  have e : z / dz * dz = z := div_mul_cancel₀ z hz.ne'
  have c1 : ((b : ℝ) - 1 / 2) * dz ≤ z := by rw [← e]; exact mul_le_mul_of_nonneg_right (by linarith) hz.le
  have c2 : z < ((b : ℝ) + 1 / 2) * dz := by rw [← e]; exact mul_lt_mul_of_pos_right (by linarith) hz
  unfold lineShare
  apply max_eq_left
  rw [sub_nonpos]
  rcases le_total 0 (z - z') with k | k
  · rw [abs_of_nonneg k] at far
    exact (min_le_left _ _).trans ((show z' + dz / 2 ≤ ((b : ℝ) - 1 / 2) * dz by nlinarith).trans (le_max_right _ _))
  · rw [abs_of_nonpos k] at far
    exact (min_le_right _ _).trans ((show ((b : ℝ) + 1 / 2) * dz ≤ z' - dz / 2 by nlinarith).trans (le_max_left _ _))

/-- C114 fails for the random placement: one positive and one negative macroparticle of the same density whose random numbers put them two
cells apart leave charges at the nodes, so that the fields (which are zero) do not belong to the charges from the start on. -/
theorem C114_random_fails {X : Setup} (h : X.Sane) (hr : X.spatial = .random) (h1 : X.env.domR = 1) (h2 : X.env.domZ = 1) {s s' : Species}
    (hs : X.species = [s, s']) {q d : ℝ} (q0 : q ≠ 0) (d0 : 0 < d) (c1 : X.env.charge s.id = q) (c2 : X.env.charge s'.id = -q)
    (a1 : s.amount = 1 ∧ s.left = d ∧ s.right = d) (a2 : s'.amount = 1 ∧ s'.left = d ∧ s'.right = d) (u1 : X.uz 0 0 s.id 0 ≠ 0) (u2 : X.uz 0 0 s'.id 0 ≠ 0)
    (far : 2 ≤ ((X.env.p.nz : ℝ) - 1) * |X.uz 0 0 s.id 0 - X.uz 0 0 s'.id 0|) {S : State} (st : Starts X S) :
    domCharge X.env S 0 0 = 0 ∧ ∃ x y, chargeAt X.env S x y ≠ 0 := by
  have hi : 0 < X.env.domR := by omega
  have hj : 0 < X.env.domZ := by omega
  have ms : s ∈ X.species := by rw [hs]; exact List.mem_cons_self
  have ms' : s' ∈ X.species := by rw [hs]; exact List.mem_cons_of_mem _ List.mem_cons_self
  have nt : X.Neutral := by
    classical
    intro a l r
    rw [hs]
    by_cases c : (1 : ℝ) = a ∧ d = l ∧ d = r
    · rw [List.filter_cons_of_pos (by simpa [a1] using c), List.filter_cons_of_pos (by simpa [a2] using c)]
      simp [c1, c2]
    · rw [List.filter_cons_of_neg (by simpa [a1] using c), List.filter_cons_of_neg (by simpa [a2] using c)]
      rfl
  refine ⟨C114_total h nt st hi hj, ?_⟩
  have dr : 0 < X.env.p.dr := h.chamber.good.geo.dr
  have dz : 0 < X.env.p.dz := h.chamber.good.geo.dz
  obtain ⟨⟨_, _, _, _, r5, _⟩, _, _, _, _, z5, _⟩ := h.chamber.div.bounds hi hj
  have r5 := r5 (by omega)
  have z5 := z5 (by omega)
  have gN : (X.env.geom 0 0).dr = X.env.p.dr ∧ (X.env.geom 0 0).dz = X.env.p.dz ∧ (X.env.geom 0 0).r0 = 0 ∧ (X.env.geom 0 0).z0 = 0 ∧
      (X.env.geom 0 0).nr = X.env.p.nr ∧ (X.env.geom 0 0).nz = X.env.p.nz := by
    rw [geom_eq h.chamber]
    rw [low_zero] at r5 z5
    refine ⟨rfl, rfl, low_zero _ _, low_zero _ _, ?_, ?_⟩
    · show hgt X.env.p.nr X.env.domR 0 = _
      omega
    · show hgt X.env.p.nz X.env.domZ 0 = _
      omega
  have wR : (X.env.walls 0 0).r1 = true := by rw [walls_eq h.chamber]; exact decide_eq_true (by omega)
  have wZ : (X.env.walls 0 0).z1 = true := by rw [walls_eq h.chamber]; exact decide_eq_true (by omega)
  have n2 : (2 : ℝ) ≤ X.env.p.nr := by have := h.chamber.div.r2; have := h.chamber.div.r1; exact_mod_cast (by omega : 2 ≤ X.env.p.nr)
  have n2' : (2 : ℝ) ≤ X.env.p.nz := by have := h.chamber.div.z2; have := h.chamber.div.z1; exact_mod_cast (by omega : 2 ≤ X.env.p.nz)
  -- one particle of each species
  have one : ∀ t ∈ X.species, t.amount = 1 → t.left = d → t.right = d → X.uz 0 0 t.id 0 ≠ 0 → ∀ out, Distributed X 0 0 t out →
      ∃ p, out = [p] ∧ 0 < p.weight ∧ X.env.p.dr / 2 ≤ p.posR ∧ p.posZ = ((X.env.p.nz : ℝ) - 1) * X.env.p.dz * X.uz 0 0 t.id 0 + X.env.p.dz / 2 := by
    intro t ht ta tl tr tu out dt
    obtain ⟨n, ps, a, b, c⟩ := distributed_mark dt
    have a' := a
    have n1 : n = 1 := by
      have : n = ⌊t.amount / (X.env.domR : ℝ) / (X.env.domZ : ℝ)⌋₊ := by
        have := a.2
        rwa [hr] at this
      rw [this, ta, h1, h2]
      norm_num
    subst n1
    have tot := placed_total h hi hj ht a b
    have band := placed_band h hi hj ht a b
    have eL : leftOf X 0 0 t = d := by unfold leftOf Place.localDensity; rw [tl, tr]; ring
    have eR : rightOf X 0 0 t = d := by unfold rightOf Place.localDensity; rw [tl, tr]; ring
    unfold Placed at b
    rw [hr] at b
    dsimp only at b
    rw [eL, eR] at b
    rw [eL, eR] at tot
    obtain ⟨len, wo⟩ := Place.weight_only b
    have one : Place.random t.id X.mnzl (X.env.geom 0 0) (X.env.walls 0 0) (Place.whole (X.env.geom 0 0)) d d 1 (X.ur 0 0 t.id) (X.uz 0 0 t.id) =
        [Place.randomOne t.id X.mnzl (X.env.geom 0 0) (X.env.walls 0 0) (Place.whole (X.env.geom 0 0)) d d (X.ur 0 0 t.id 0) (X.uz 0 0 t.id 0)] := rfl
    rw [one] at len wo
    obtain ⟨p, rfl⟩ := List.length_eq_one_iff.mp len
    have lo : out.length = 1 := by
      have := congrArg List.length c
      simpa using this
    obtain ⟨p', rfl⟩ := List.length_eq_one_iff.mp lo
    have e : mark p' = mark p := by simpa using c
    have e1 : p'.posR = p.posR := congrArg (·.1) e
    have e2 : p'.posZ = p.posZ := congrArg (·.2.1) e
    have e3 : p'.weight = p.weight := congrArg (·.2.2) e
    refine ⟨p', rfl, ?_, ?_, ?_⟩
    · rw [e3]
      rw [if_neg (List.cons_ne_nil _ _)] at tot
      have : Place.totalWeight [p] = p.weight := by unfold Place.totalWeight; simp
      rw [← this, tot]
      unfold Place.nTotal Place.zSize
      rw [Place.whole_sizes (by have := (geom_good h.chamber hi hj).nz; omega)]
      rw [wR, wZ, gN.1, gN.2.1, gN.2.2.1, gN.2.2.2.2.1, gN.2.2.2.2.2]
      have pp := h.chamber.good.pi
      have pp : 0 < X.env.e.pi := pp
      simp only [↓reduceIte]
      have k1 : (0 : ℝ) < ((0 + X.env.p.nr : Nat) : ℝ) - 1 := by push_cast; linarith
      have k2 : (0 : ℝ) < (X.env.p.nz : ℝ) * X.env.p.dz - X.env.p.dz := by nlinarith
      have k3 : (0 : ℝ) < (((0 + X.env.p.nr : Nat) : ℝ) - 1) * (((0 + X.env.p.nr : Nat) : ℝ) - 1) - ((0 : Nat) : ℝ) * ((0 : Nat) : ℝ) := by
        rw [Nat.cast_zero, mul_zero, sub_zero]
        exact mul_pos k1 k1
      have k4 : 0 < (d + d) / 2 := by linarith
      exact mul_pos (mul_pos (mul_pos (mul_pos (mul_pos k4 pp) dr) dr) k3) k2
    · rw [e1]
      have := (band p List.mem_cons_self).r1
      rw [gN.1, gN.2.2.1, Nat.cast_zero] at this
      linarith
    · rw [e2]
      obtain ⟨x, hx, w, rfl⟩ := wo p List.mem_cons_self
      obtain rfl := List.mem_singleton.mp hx
      show (Place.randomOne t.id X.mnzl (X.env.geom 0 0) (X.env.walls 0 0) (Place.whole (X.env.geom 0 0)) d d (X.ur 0 0 t.id 0) (X.uz 0 0 t.id 0)).posZ = _
      unfold Place.randomOne Place.zSize Place.shiftZ Place.newPart
      dsimp only
      rw [Place.whole_sizes (by have := (geom_good h.chamber hi hj).nz; omega), if_neg tu, if_pos rfl, wZ, gN.2.1, gN.2.2.2.2.2]
      have z0 : (Place.whole (X.env.geom 0 0)).left = 0 := gN.2.2.2.1
      rw [z0]
      simp only [↓reduceIte]
      push_cast
      ring
  -- the two lists
  have ls := st.lists 0 0
  rw [hs] at ls
  cases es : S.D 0 0 with
  | nil => rw [es] at ls; simp at ls
  | cons A l =>
  cases el : l with
  | nil => rw [es, el] at ls; simp at ls
  | cons B l' =>
  rw [el] at es
  rw [es] at ls
  have iA : A.id = s.id := by simpa using (List.cons.inj ls).1
  have iB : B.id = s'.id := by simpa using (List.cons.inj (List.cons.inj ls).2).1
  have iR : l'.map Sp.id = X.beams := by simpa using (List.cons.inj (List.cons.inj ls).2).2
  have mA : A ∈ S.D 0 0 := by rw [es]; exact List.mem_cons_self
  have mB : B ∈ S.D 0 0 := by rw [es]; exact List.mem_cons_of_mem _ List.mem_cons_self
  obtain ⟨p, p1, p2, p3, p4⟩ := one s ms a1.1 a1.2.1 a1.2.2 u1 _ (st.plasma 0 0 hi hj A mA s ms iA.symm)
  obtain ⟨p', p1', p2', p3', p4'⟩ := one s' ms' a2.1 a2.2.1 a2.2.2 u2 _ (st.plasma 0 0 hi hj B mB s' ms' iB.symm)
  refine ⟨⌊p.posR / X.env.p.dr + 1 / 2⌋, ⌊p.posZ / X.env.p.dz + 1 / 2⌋, ?_⟩
  have rest : (l'.map fun sp => (sp.parts.map fun o => VB.nodeCharge (ctxOf X.env.p 0 X.env.e).g (X.env.charge sp.id * (S.heap o.tag).weight) (S.heap o.tag).posR
      (S.heap o.tag).posZ ⌊p.posR / X.env.p.dr + 1 / 2⌋ ⌊p.posZ / X.env.p.dz + 1 / 2⌋).sum).sum = 0 := by
    apply List.sum_eq_zero
    intro x hx
    obtain ⟨sp, hsp, rfl⟩ := List.mem_map.mp hx
    rw [st.beam 0 0 hi hj sp (by rw [es]; exact List.mem_cons_of_mem _ (List.mem_cons_of_mem _ hsp)) (by rw [← iR]; exact List.mem_map_of_mem hsp)]
    rfl
  have sm : ∀ (sp : Sp) (c : Part ℝ), (sp.parts.map fun o => S.heap o.tag) = [c] → ∀ (Q : ℝ) (x y : Int), (sp.parts.map fun o =>
      VB.nodeCharge (ctxOf X.env.p 0 X.env.e).g (Q * (S.heap o.tag).weight) (S.heap o.tag).posR (S.heap o.tag).posZ x y).sum =
      VB.nodeCharge (ctxOf X.env.p 0 X.env.e).g (Q * c.weight) c.posR c.posZ x y := by
    intro sp c e Q x y
    have k := congrArg (fun l => (l.map fun c : Part ℝ => VB.nodeCharge (ctxOf X.env.p 0 X.env.e).g (Q * c.weight) c.posR c.posZ x y).sum) e
    simp only [List.map_map, List.map_cons, List.map_nil, List.sum_cons, List.sum_nil, add_zero] at k
    exact k
  unfold chargeAt
  rw [h1, h2, Finset.sum_range_one, Finset.sum_range_one, es, List.map_cons, List.map_cons, List.sum_cons, List.sum_cons, rest, sm A p p1, sm B p' p1', iA, iB, c1, c2,
    add_zero]
  have zero : VB.nodeCharge (ctxOf X.env.p 0 X.env.e).g (-q * p'.weight) p'.posR p'.posZ ⌊p.posR / X.env.p.dr + 1 / 2⌋ ⌊p.posZ / X.env.p.dz + 1 / 2⌋ = 0 := by
    unfold VB.nodeCharge
    have : lineShare X.env.p.dz p'.posZ ((⌊p.posZ / X.env.p.dz + 1 / 2⌋ : Int) : ℝ) = 0 := by
      apply line_far dz
      rw [p4, p4', show ((X.env.p.nz : ℝ) - 1) * X.env.p.dz * X.uz 0 0 s.id 0 + X.env.p.dz / 2 - (((X.env.p.nz : ℝ) - 1) * X.env.p.dz * X.uz 0 0 s'.id 0 + X.env.p.dz / 2) =
        ((X.env.p.nz : ℝ) - 1) * (X.uz 0 0 s.id 0 - X.uz 0 0 s'.id 0) * X.env.p.dz by ring, abs_mul, abs_mul, abs_of_pos dz, abs_of_nonneg (by linarith : (0 : ℝ) ≤ (X.env.p.nz : ℝ) - 1)]
      exact mul_le_mul_of_nonneg_right far dz.le
    show _ * (lineShare X.env.p.dz p'.posZ _ / X.env.p.dz) = 0
    rw [this, zero_div, mul_zero]
  rw [zero, add_zero]
  unfold VB.nodeCharge
  have r1 := ring_near dr p3
  have r2 := line_near (z := p.posZ) dz
  have rp : 0 < p.posR := by linarith
  show q * p.weight * (ringShare X.env.p.dr p.posR _ / (2 * p.posR * X.env.p.dr)) * (lineShare X.env.p.dz p.posZ _ / X.env.p.dz) ≠ 0
  have y1 : 0 < ringShare X.env.p.dr p.posR ((⌊p.posR / X.env.p.dr + 1 / 2⌋ : Int) : ℝ) / (2 * p.posR * X.env.p.dr) := div_pos r1 (by positivity)
  have y2 : 0 < lineShare X.env.p.dz p.posZ ((⌊p.posZ / X.env.p.dz + 1 / 2⌋ : Int) : ℝ) / X.env.p.dz := div_pos r2 dz
  exact mul_ne_zero (mul_ne_zero (mul_ne_zero q0 p2.ne') y1.ne') y2.ne'

/-! ### Non-vacuity -/

/-- One positive and one negative macroparticle of the same density in a chamber with the default deposition. -/
noncomputable def exPairEnv : Env := { exEnv 1 1 1 with dist := VB.currentDistribution, charge := fun id => if id = 7 then 1 else -1 }

noncomputable def exPair (sp : Spatial) : Setup :=
  { exSetup exPairEnv 1 sp [] with speedy := .eigen, layers := none, species := [⟨7, 1, 1, 1, 1/4⟩, ⟨8, 1, 1, 1, 1/4⟩] }

theorem exPair_chamber : Chamber exPairEnv := by
  have h := exEnv_chamber ex_div1 1
  exact ⟨h.r0, h.walls, h.div, h.good, h.c, h.cr, h.cz, h.mass⟩

theorem exPair_sane (sp : Spatial) : (exPair sp).Sane := by
  have s0 := exSetup_sane (E := exEnv 1 1 1) (exEnv_chamber ex_div1 1) rfl 1 sp (beams := []) List.nodup_nil (by simp)
  refine ⟨exPair_chamber, s0.lim, s0.lim3, s0.q, s0.mnzl0, s0.mnzl1, s0.mnzlR, s0.mnzlZ, ?_, fun x hx => ?_, s0.ur, s0.uz, s0.us, s0.rs⟩
  · show [7, 8].Nodup
    decide
  · rcases List.mem_pair.mp hx with rfl | rfl <;> norm_num

theorem exPair_neutral (sp : Spatial) : (exPair sp).Neutral := by
  classical
  intro a l r
  show ((List.filter _ [(⟨7, 1, 1, 1, 1/4⟩ : Species), ⟨8, 1, 1, 1, 1/4⟩]).map _).sum = 0
  by_cases c : (1 : ℝ) = a ∧ (1 : ℝ) = l ∧ (1 : ℝ) = r
  · rw [List.filter_cons_of_pos (by simpa using c), List.filter_cons_of_pos (by simpa using c)]
    norm_num [exPair, exSetup, exPairEnv]
  · rw [List.filter_cons_of_neg (by simpa using c), List.filter_cons_of_neg (by simpa using c)]
    rfl

theorem exPair_cold (sp : Spatial) : ∀ s ∈ (exPair sp).species, (exPair sp).Cold s := by
  intro s hs
  rcases List.mem_pair.mp hs with rfl | rfl <;> norm_num [Setup.Cold, exPair, exSetup, exPairEnv, exEnv, Vel.ratio, Setup.cst]

theorem exPair_starts (sp : Spatial) : ∃ S, Starts (exPair sp) S :=
  C110_exists (exPair_sane sp) (fun _ _ => .inl rfl) (fun x hx => by
    rcases List.mem_pair.mp hx with rfl | rfl <;>
      exact ⟨by norm_num, by norm_num [exPair, exSetup, exPairEnv, exEnv], by norm_num [exPair, exSetup, exPairEnv, exEnv], trivial⟩)

/-- Where the two particles begin and with which velocities. -/
theorem exPair_part {S : State} (st : Starts (exPair .flat) S) {sp : Sp} (hsp : sp ∈ S.D 0 0) {o : Prt} (ho : o ∈ sp.parts) :
    (S.heap o.tag).posR = 503/1000 ∧ (S.heap o.tag).posZ = 503/1000 ∧ ∃ s : ℝ, 0 < s ∧ s ^ 2 = 1/5 ∧ vel (S.heap o.tag) = ⟨s, s, s⟩ := by
  have hid : sp.id ∈ [7, 8] := by
    have : sp.id ∈ (S.D 0 0).map Sp.id := List.mem_map_of_mem hsp
    rw [st.lists] at this
    exact this
  obtain ⟨t, ht, et, a1, l1, r1, t1⟩ : ∃ t ∈ (exPair .flat).species, t.id = sp.id ∧ t.amount = 1 ∧ t.left = 1 ∧ t.right = 1 ∧ t.temperature = 1/4 := by
    rcases List.mem_pair.mp hid with e | e
    · exact ⟨_, List.mem_cons_self, e.symm, rfl, rfl, rfl, rfl⟩
    · exact ⟨_, List.mem_cons_of_mem _ List.mem_cons_self, e.symm, rfl, rfl, rfl, rfl⟩
  have d := st.plasma 0 0 (by show 0 < 1; decide) (by show 0 < 1; decide) sp hsp t ht et
  have G : ((exPair .flat).env.geom 0 0).Good := geom_good exPair_chamber (i := 0) (j := 0) (by show 0 < 1; decide) (by show 0 < 1; decide)
  have mem : S.heap o.tag ∈ sp.parts.map fun o => S.heap o.tag := List.mem_map_of_mem (f := fun o => S.heap o.tag) ho
  have places : ∀ p : Part ℝ, p ∈ sp.parts.map (fun o => S.heap o.tag) → p.posR = 503/1000 ∧ p.posZ = 503/1000 := by
    obtain ⟨n, ps, a, b, c⟩ := distributed_mark d
    have n1 : n = 1 := by
      have : n = ⌊t.amount / ((1 : Nat) : ℝ) / ((1 : Nat) : ℝ)⌋₊ := a.2
      rw [this, a1]
      norm_num
    subst n1
    obtain ⟨ur, uz, f, b⟩ := b
    have eL : leftOf (exPair .flat) 0 0 t = 1 := by unfold leftOf Place.localDensity; rw [l1, r1]; norm_num
    have eR : rightOf (exPair .flat) 0 0 t = 1 := by unfold rightOf Place.localDensity; rw [l1, r1]; norm_num
    rw [eL, eR] at b
    obtain ⟨q, q1, q2, q3⟩ := (Place.C32_flat (mnzl := (exPair .flat).mnzl) G ((exPair .flat).env.walls 0 0) 1 t.id 1 (by norm_num)).2 ur uz f 0 (by norm_num)
    intro p hp
    have : mark p ∈ ps.map mark := by rw [← c]; exact List.mem_map_of_mem hp
    obtain ⟨p', hp', e⟩ := List.mem_map.mp this
    have e1 : p.posR = p'.posR := (congrArg (·.1) e).symm
    have e2 : p.posZ = p'.posZ := (congrArg (·.2.1) e).symm
    obtain ⟨q', hq', x, rfl⟩ := (Place.weight_only b).2 p' hp'
    have one : Place.random t.id (exPair .flat).mnzl ((exPair .flat).env.geom 0 0) ((exPair .flat).env.walls 0 0) (Place.whole ((exPair .flat).env.geom 0 0)) 1 1 1 ur uz = [q] := by
      unfold Place.random at q1 ⊢
      simpa using q1
    rw [one] at hq'
    obtain rfl := List.mem_singleton.mp hq'
    rw [e1, e2]
    show q'.posR = _ ∧ q'.posZ = _
    rw [q2, q3]
    have w : (exPair .flat).env.walls 0 0 = ⟨true, true, true, true⟩ := rfl
    have g : (exPair .flat).env.geom 0 0 = ⟨1, 1, 0, 0, 4, 4⟩ := by
      show exPairEnv.geom 0 0 = _
      rw [geom_eq exPair_chamber]
      norm_num [exPairEnv, exEnv, low, hgt]
    rw [w, g]
    norm_num [exPair, exSetup]
  obtain ⟨x1, x2⟩ := places _ mem
  refine ⟨x1, x2, ?_⟩
  obtain ⟨n, ps, qs, vs, _, _, _, h4, h5, h6⟩ := d
  obtain ⟨s, e, s0, es⟩ := Vel.plain_fast (k := (exPair .flat).cst t.id) ((exPair_sane .flat).good t.id) (T := t.temperature)
    (by rw [t1]; norm_num [Vel.ratio, Setup.cst, exPair, exSetup, exPairEnv, exEnv])
  have es : s ^ 2 = 1/5 := by
    rw [t1] at es
    norm_num [Vel.ratio, Setup.cst, exPair, exSetup, exPairEnv, exEnv] at es
    linarith
  refine ⟨s, s0, es, ?_⟩
  have h4 : Vel.eigen ((exPair .flat).cst t.id) t.temperature qs.length = .ok (vs.map some) := h4
  unfold Vel.eigen at h4
  rw [if_neg (by norm_num [Setup.cst, exPair, exSetup, exPairEnv, exEnv]), e] at h4
  have h4 : List.replicate qs.length (some (⟨s, s, s⟩ : Vec3 ℝ)) = vs.map some := Res.ok.inj h4
  rw [h6] at mem
  obtain ⟨k, hk, ek⟩ := List.mem_iff_getElem.mp mem
  rw [List.length_zipWith] at hk
  have hv : vs[k]'(by omega) = ⟨s, s, s⟩ := by
    have : (vs.map some)[k]'(by simp; omega) = some ⟨s, s, s⟩ := by
      simp only [← h4]
      simp
    simpa using this
  rw [← ek, List.getElem_zipWith, hv]
  rfl

/-- The path of a particle within the cell at the axis. -/
theorem ex_inside {p : VB.Part ℝ} (h1 : 0 < p.rOld) (h2 : p.rOld + 1/1000 ≤ p.r) (h3 : p.r < 1) (h4 : 0 < p.zOld) (h5 : p.zOld + 1/1000 ≤ p.z) (h6 : p.z < 1)
    (g : Geom ℝ) (g1 : g.dr = 1) (g2 : g.dz = 1) : p.General g (1/1000) := by
  have key : ∀ (n : Int) (a : ℝ), 0 < a → a < 1 → a ≠ n := by
    rintro n a u v rfl
    have u' : (0 : Int) < n := by exact_mod_cast u
    have v' : n < (1 : Int) := by exact_mod_cast v
    omega
  have onR : ∀ t, 0 ≤ t → t ≤ 1 → ¬ VB.OnR g (p.rAt t) := by
    rintro t a b ⟨n, e⟩
    rw [g1, mul_one] at e
    unfold VB.Part.rAt at e
    exact key n _ (by nlinarith) (by nlinarith) e
  have onZ : ∀ t, 0 ≤ t → t ≤ 1 → ¬ VB.OnZ g (p.zAt t) := by
    rintro t a b ⟨n, e⟩
    rw [g2, mul_one] at e
    unfold VB.Part.zAt at e
    exact key n _ (by nlinarith) (by nlinarith) e
  refine ⟨⟨?_, ?_⟩, ?_, ?_⟩
  · have := onR 0 le_rfl zero_le_one
    unfold VB.Part.rAt at this
    rwa [zero_mul, add_zero] at this
  · have := onZ 0 le_rfl zero_le_one
    unfold VB.Part.zAt at this
    rwa [zero_mul, add_zero] at this
  · exact fun t a b c => onR t a b c.1
  · intro s t hs hst ht c d
    obtain rfl : s = 0 := by
      rcases c with c | c | c
      · exact c
      · exact absurd c (onR s hs (by linarith))
      · exact absurd c (onZ s hs (by linarith))
    obtain rfl : t = 1 := by
      rcases d with d | d | d
      · exact d
      · exact absurd d (onR t (by linarith) ht)
      · exact absurd d (onZ t (by linarith) ht)
    unfold VB.Part.rAt VB.Part.zAt
    constructor <;> refine le_trans ?_ (le_abs_self _) <;> linarith

/-- The hypotheses of `C114_gauss_single_partial` for the first step. -/
example : (exPair .flat).Sane ∧ (∀ s ∈ (exPair .flat).species, (exPair .flat).Cold s) ∧ (exPair .flat).Neutral ∧ HalfCell exPairEnv ∧
    ∃ S, Starts (exPair .flat) S ∧ (∃ T, Step exPairEnv S T) ∧ ∀ k T, k ≤ 1 → Run exPairEnv S k T → 0 < k → GeneralPaths exPairEnv T := by
  have h := exPair_sane .flat
  have hc := exPair_cold .flat
  have half : HalfCell exPairEnv := by unfold HalfCell exPairEnv exEnv; norm_num
  obtain ⟨S, st⟩ := exPair_starts .flat
  have hE := exPair_chamber
  have A : Alive exPairEnv [7, 8] S := begun_single hE rfl rfl (C110_start_partial h hc st)
  have B := no_border hE (.inl rfl) rfl rfl half A
  obtain ⟨S', s1, AS, pm⟩ := C97_step_partial hE (.inl rfl) (.inl rfl) (by decide) A B
  refine ⟨h, hc, exPair_neutral _, half, S, st, ⟨S', (s1 S').mpr rfl⟩, fun k T hk r k0 => ?_⟩
  obtain rfl : k = 1 := by omega
  cases r with
  | step r s =>
  cases r
  obtain rfl := (s1 T).mp s
  -- the fields stay zero
  have s' := s
  obtain ⟨M1, e1, g, _⟩ := s'
  have W : ∀ c, c.isSource = false → Windows exPairEnv.p 1 1 c M1 (fun _ _ _ => 0) := by
    obtain ⟨m0, e0, z0⟩ := rest_whole exPairEnv.p ex_div1
    have med : S.M 0 0 = exMedium := by
      have := st.solver 0 0 (by show 0 < 1; decide) (by show 0 < 1; decide)
      exact (Res.ok.inj this).symm
    obtain ⟨M2, m1, a1, a2, a3, _⟩ := C62_step exPairEnv.p ex_div1 (M := S.M) (m := exMedium)
      (fun c hc i j x y ho => by
        obtain rfl : i = 0 := by have := ho.1; omega
        obtain rfl : j = 0 := by have := ho.2.1; omega
        rw [med]
        exact ⟨fun _ => rfl, fun _ => if_neg (fun k => by rw [k] at hc; exact (nomatch hc))⟩) (loc := S.M) (src := exMedium)
      (fun i j x y c hc ho => by
        obtain rfl : i = 0 := by have := ho.1; omega
        obtain rfl : j = 0 := by have := ho.2.1; omega
        rw [med]
        rfl)
    have e : setSources exMedium exMedium = exMedium := by
      funext c x y
      exact ite_self _
    have e' : (fun i j => setSources (S.M i j) (S.M i j)) = S.M := by
      funext i j c x y
      exact ite_self _
    rw [e'] at a1
    rw [e] at a2
    obtain rfl := Res.ok.inj (a2.symm.trans e0)
    obtain rfl := Res.ok.inj (a1.symm.trans e1)
    intro c hc i j x y ho
    obtain ⟨k1, k2⟩ := a3 c hc i j x y ho
    refine ⟨fun s => ?_, k2⟩
    rw [k1 s]
    refine z0 c _ _ hc ?_
    have bd := hE.div.bounds ho.1 ho.2.1
    have d1 : exPairEnv.domR = 1 := rfl
    have d2 : exPairEnv.domZ = 1 := rfl
    rw [d1, d2] at bd
    obtain ⟨_, _, hx, hy⟩ := ho
    unfold Par.inside
    omega
  intro i j hi hj sp hsp o ho
  obtain rfl : i = 0 := by have : i < 1 := hi; omega
  obtain rfl : j = 0 := by have : j < 1 := hj; omega
  -- the particle before the step
  have m := (pm sp.id (by rw [← AS.species 0 0]; exact List.mem_map_of_mem hsp)).mem_iff.mp (mem_tags.mpr ⟨0, 0, hi, hj, sp, hsp, rfl, o, ho, rfl⟩)
  obtain ⟨i', j', hi', hj', sp', hsp', hid, o', ho', et⟩ := mem_tags.mp m
  obtain rfl : i' = 0 := by have : i' < 1 := hi'; omega
  obtain rfl : j' = 0 := by have : j' < 1 := hj'; omega
  obtain ⟨x1, x2, v, v0, v1, ev⟩ := exPair_part st hsp' ho'
  obtain ⟨u, p1, _, p3⟩ := moves_iff hE (.inl rfl) A B e1 hi' hj' hsp' ho'
  have mv := (p3 _).mp (g 0 0 hi' hj' sp' hsp' o' ho')
  obtain rfl := Res.ok.inj ((p1 true).symm.trans (free hE rfl hi' hj' (A.place 0 0 hi' hj' sp' hsp' o' ho') (by unfold Interp.AtSeam; omega) sp'.id W true))
  rw [ev, et] at mv
  have v2 : v < 1/2 := by nlinarith
  have v3 : 1/3 < v := by nlinarith
  have lz : landZ exPairEnv (S.heap o.tag) ⟨v, v, v⟩ = 503/1000 + v / 2 := by
    unfold landZ
    rw [← et, x2]
    show 503/1000 + v * (1/2) = _
    ring
  have lr : landR exPairEnv (S.heap o.tag) ⟨v, v, v⟩ = Real.sqrt ((503/1000 + v / 2) ^ 2 + (v / 2) ^ 2) := by
    unfold landR
    rw [← et, x1, (A.place 0 0 hi' hj' sp' hsp' o' ho').phi]
    show Real.sqrt ((503/1000 + v * (1/2)) ^ 2 + (0 + v * (1/2)) ^ 2) = _
    congr 1
    ring
  have b1 : 504/1000 ≤ Real.sqrt ((503/1000 + v / 2) ^ 2 + (v / 2) ^ 2) := Real.le_sqrt_of_sq_le (by nlinarith)
  have b2 : Real.sqrt ((503/1000 + v / 2) ^ 2 + (v / 2) ^ 2) < 9/10 := by
    rw [Real.sqrt_lt' (by norm_num)]
    nlinarith
  refine ⟨ex_inside ?_ ?_ ?_ ?_ ?_ ?_ _ rfl rfl, by unfold CutsCorner; omega⟩
  all_goals rw [mv]
  · show 0 < (S.heap o.tag).posR
    rw [← et, x1]
    norm_num
  · show (S.heap o.tag).posR + 1/1000 ≤ Part.mirX true true (1 : ℝ) ((4 : ℕ) * 1) (landR exPairEnv (S.heap o.tag) ⟨v, v, v⟩)
    rw [lr, Part.mirX, if_neg (by simp; linarith), if_neg (by simp; linarith), ← et, x1]
    linarith
  · show Part.mirX true true (1 : ℝ) ((4 : ℕ) * 1) (landR exPairEnv (S.heap o.tag) ⟨v, v, v⟩) < 1
    rw [lr, Part.mirX, if_neg (by simp; linarith), if_neg (by simp; linarith)]
    linarith
  · show 0 < (S.heap o.tag).posZ
    rw [← et, x2]
    norm_num
  · show (S.heap o.tag).posZ + 1/1000 ≤ Part.mirX true true (1 : ℝ) ((4 : ℕ) * 1) (landZ exPairEnv (S.heap o.tag) ⟨v, v, v⟩)
    rw [lz, Part.mirX, if_neg (by simp; linarith), if_neg (by simp; linarith), ← et, x2]
    linarith
  · show Part.mirX true true (1 : ℝ) ((4 : ℕ) * 1) (landZ exPairEnv (S.heap o.tag) ⟨v, v, v⟩) < 1
    rw [lz, Part.mirX, if_neg (by simp; linarith), if_neg (by simp; linarith)]
    linarith

/-- The hypotheses of `C114_random_fails`: random numbers that put the positive particle near the left and the negative one near the right end. -/
example : ∃ S, Starts { exPair .random with uz := fun _ _ id _ => if id = 7 then 1/10 else 9/10 } S ∧ domCharge exPairEnv S 0 0 = 0 ∧
    ∃ x y, chargeAt exPairEnv S x y ≠ 0 := by
  have s0 := exPair_sane .random
  have h : Setup.Sane { exPair .random with uz := fun _ _ id _ => if id = 7 then 1/10 else 9/10 } :=
    ⟨s0.chamber, s0.lim, s0.lim3, s0.q, s0.mnzl0, s0.mnzl1, s0.mnzlR, s0.mnzlZ, s0.ids, s0.plasma, s0.ur,
      fun _ _ id _ => by dsimp only; split_ifs <;> norm_num, s0.us, s0.rs⟩
  obtain ⟨S, st⟩ := C110_exists h (fun _ _ => .inl rfl) (fun x hx => by
    rcases List.mem_pair.mp hx with rfl | rfl <;>
      exact ⟨by norm_num, by norm_num [exPair, exSetup, exPairEnv, exEnv], by norm_num [exPair, exSetup, exPairEnv, exEnv], trivial⟩)
  exact ⟨S, st, C114_random_fails h rfl rfl rfl rfl (q := 1) (d := 1) (by norm_num) (by norm_num) (by norm_num [exPair, exSetup, exPairEnv])
    (by norm_num [exPair, exSetup, exPairEnv]) ⟨rfl, rfl, rfl⟩ ⟨rfl, rfl, rfl⟩ (by norm_num) (by norm_num)
    (by norm_num [exPair, exSetup, exPairEnv, exEnv, abs_of_neg]) st⟩

end Pic
end Pico
