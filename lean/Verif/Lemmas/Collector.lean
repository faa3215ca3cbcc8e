import Mathlib.Data.List.Nodup
import Verif.Model.Collector
import Verif.Lemmas.SMB

/-! Helper lemmas for the particle hand-over. -/

set_option linter.unusedSimpArgs false
set_option linter.unusedVariables false

namespace Pico
namespace SMB

/-- Domain (of `A × B` cells each) that owns the particle's cell, if it is in the area. -/
def own (g : Geo) (A B : Nat) (o : Prt) : Option (Nat × Nat) :=
  if (0 ≤ o.r ∧ o.r < g.nr) ∧ (0 ≤ o.z ∧ o.z < g.nz) then some (o.r.toNat / A, o.z.toNat / B)
  else none

/-- Even division, no MPI offset. -/
structure Even (g : Geo) (A B : Nat) : Prop where
  nr : g.nr = A * g.domR
  nz : g.nz = B * g.domZ
  A_pos : 0 < A
  B_pos : 0 < B
  offR : g.offR = 0
  offZ : g.offZ = 0

theorem own_lt {g : Geo} {A B : Nat} (E : Even g A B) {o : Prt} {p : Nat × Nat}
    (h : own g A B o = some p) : p.1 < g.domR ∧ p.2 < g.domZ := by
  unfold own at h
  split at h
  · rename_i hc
    obtain ⟨⟨h1, h2⟩, h3, h4⟩ := hc
    obtain rfl := Option.some.inj h
    refine ⟨?_, ?_⟩
    · apply Nat.div_lt_of_lt_mul
      have := E.nr
      omega
    · apply Nat.div_lt_of_lt_mul
      have := E.nz
      omega
  · exact absurd h (by simp)

theorem classify_even {g : Geo} {A B : Nat} (E : Even g A B) (i j : Nat) (o : Prt) :
    classify g i j A B o = .ok (match own g A B o with
      | none => .drop
      | some p => if p = (i, j) then .keep else .move p.1 p.2) := by
  have hA := E.A_pos
  have hB := E.B_pos
  unfold classify
  rw [if_neg (by omega)]
  by_cases h1 : o.r < 0 ∨ o.z < 0
  · rw [if_pos h1, show own g A B o = none from if_neg (by omega)]
  · rw [if_neg h1]
    by_cases h2 : o.r ≥ (g.offR + g.nr : Nat)
    · rw [if_pos h2, show own g A B o = none from if_neg (by have := E.offR; omega)]
    · rw [if_neg h2]
      by_cases h3 : o.z ≥ (g.offZ + g.nz : Nat)
      · rw [if_pos h3, show own g A B o = none from if_neg (by have := E.offZ; omega)]
      · have e1 := E.offR
        have e2 := E.offZ
        rw [if_neg h3, if_neg (by omega)]
        have ho : own g A B o = some (o.r.toNat / A, o.z.toNat / B) := if_pos (by omega)
        have hlt := own_lt E ho
        dsimp only at hlt
        rw [ho, e1, e2]
        dsimp only [Nat.sub_zero]
        by_cases h4 : o.r.toNat / A ≠ i ∨ o.z.toNat / B ≠ j
        · rw [if_pos h4, if_pos hlt, if_neg (by simp only [Prod.mk.injEq]; omega)]
        · rw [if_neg h4, if_pos (by simp only [Prod.mk.injEq]; omega)]

/-- Particle lists indexed by domain and species id. -/
abbrev PF := Nat → Nat → Nat → List Prt

/-- Domains that all have the species `ids`. -/
def ofF (ids : List Nat) (f : PF) : Doms := fun i j => ids.map fun id => ⟨id, f i j id⟩

theorem ofF_congr (ids : List Nat) (f f' : PF) (h : ∀ i j, ∀ id ∈ ids, f i j id = f' i j id) :
    ofF ids f = ofF ids f' := by
  funext i j
  unfold ofF
  apply List.map_congr_left
  intro id hid
  rw [h i j id hid]

theorem setDom_ofF (ids : List Nat) (f : PF) (i j : Nat) (v : Nat → List Prt) :
    setDom (ofF ids f) i j (ids.map fun id => ⟨id, v id⟩)
      = ofF ids (fun a b id => if a = i ∧ b = j then v id else f a b id) := by
  funext a b
  unfold setDom ofF
  by_cases h : a = i ∧ b = j
  · simp only [h, and_self, if_true]
  · simp only [h, if_false]

/-- Particles of `l` owned by domain `(a, b)`. -/
def mine (g : Geo) (A B a b : Nat) (l : List Prt) : List Prt :=
  l.filter fun o => own g A B o = some (a, b)

theorem mine_cons_pos {g : Geo} {A B a b : Nat} {o : Prt} (l : List Prt)
    (h : own g A B o = some (a, b)) : mine g A B a b (o :: l) = o :: mine g A B a b l := by
  unfold mine; rw [List.filter_cons_of_pos (by simpa using h)]

theorem mine_cons_neg {g : Geo} {A B a b : Nat} {o : Prt} (l : List Prt)
    (h : own g A B o ≠ some (a, b)) : mine g A B a b (o :: l) = mine g A B a b l := by
  unfold mine; rw [List.filter_cons_of_neg (by simpa using h)]

theorem collectOne_even {g : Geo} {A B : Nat} (E : Even g A B) (i j id : Nat) (o : Prt)
    (s : Doms × List Prt) : collectOne g i j A B id o s = .ok (match own g A B o with
      | none => s
      | some p => if p = (i, j) then (s.1, s.2 ++ [o])
        else (setDom s.1 p.1 p.2 (pushTo id o (s.1 p.1 p.2)), s.2)) := by
  unfold collectOne
  rw [classify_even E, Res.ok_bind]
  cases ho : own g A B o with
  | none => rfl
  | some p =>
    dsimp only
    by_cases h : p = (i, j)
    · rw [if_pos h, if_pos h]
    · rw [if_neg h, if_neg h]

theorem loop_collectOne {g : Geo} {A B : Nat} (E : Even g A B) (ids : List Nat) (i j id : Nat)
    (l : List Prt) : ∀ (f : PF) (kept : List Prt),
    loop (collectOne g i j A B id) l (ofF ids f, kept)
      = .ok (ofF ids (fun a b id' => f a b id' ++
          (if id' = id ∧ ¬ (a = i ∧ b = j) then mine g A B a b l else [])),
        kept ++ mine g A B i j l) := by
  induction l with
  | nil =>
    intro f kept
    rw [loop_nil]
    simp [mine]
  | cons o l ih =>
    intro f kept
    rw [loop_cons, collectOne_even E, Res.ok_bind]
    cases ho : own g A B o with
    | none =>
      dsimp only
      rw [ih]
      congr 2
      · apply ofF_congr
        intro a b id' _
        rw [mine_cons_neg l (by rw [ho]; simp)]
      · rw [mine_cons_neg l (by rw [ho]; simp)]
    | some p =>
      obtain ⟨pi, pj⟩ := p
      dsimp only
      by_cases hp : (pi, pj) = (i, j)
      · rw [if_pos hp, ih]
        obtain ⟨rfl, rfl⟩ := Prod.mk.inj hp
        congr 2
        · apply ofF_congr
          intro a b id' _
          by_cases hc : id' = id ∧ ¬ (a = pi ∧ b = pj)
          · rw [if_pos hc, if_pos hc, mine_cons_neg l (by
              rw [ho]
              intro h
              obtain ⟨rfl, rfl⟩ := Prod.mk.inj (Option.some.inj h)
              exact hc.2 ⟨rfl, rfl⟩)]
          · rw [if_neg hc, if_neg hc]
        · rw [mine_cons_pos l ho, List.append_assoc]; rfl
      · rw [if_neg hp]
        have hpush : setDom (ofF ids f) pi pj (pushTo id o (ofF ids f pi pj)) =
            ofF ids (fun a b id' => if (a = pi ∧ b = pj) ∧ id' = id then f a b id' ++ [o]
              else f a b id') := by
          funext a b
          unfold setDom ofF pushTo
          by_cases h : a = pi ∧ b = pj
          · simp only [h, and_self, if_true, List.map_map]
            apply List.map_congr_left
            intro id' _
            by_cases h' : id' = id <;> simp [h']
          · simp only [h, false_and, if_false]
        rw [hpush, ih]
        congr 2
        · apply ofF_congr
          intro a b id' _
          by_cases hc : id' = id ∧ ¬ (a = i ∧ b = j)
          · rw [if_pos hc, if_pos hc]
            by_cases h : a = pi ∧ b = pj
            · rw [if_pos ⟨h, hc.1⟩, mine_cons_pos l (by rw [ho, h.1, h.2]), List.append_assoc]
              rfl
            · rw [if_neg (fun x => h x.1), mine_cons_neg l (by
                rw [ho]
                intro e
                obtain ⟨rfl, rfl⟩ := Prod.mk.inj (Option.some.inj e)
                exact h ⟨rfl, rfl⟩)]
          · rw [if_neg hc, if_neg hc, if_neg]
            rintro ⟨⟨rfl, rfl⟩, rfl⟩
            apply hc
            refine ⟨rfl, ?_⟩
            rintro ⟨rfl, rfl⟩
            exact hp rfl
        · rw [mine_cons_neg l (by
            rw [ho]
            intro e
            exact hp (Option.some.inj e))]

/-- Effect of handling domain `(i, j)` on the particle lists of one species. -/
def stepF (g : Geo) (A B : Nat) (f : Nat → Nat → List Prt) (p : Nat × Nat) :
    Nat → Nat → List Prt :=
  fun a b => if a = p.1 ∧ b = p.2 then mine g A B a b (f a b)
    else f a b ++ mine g A B a b (f p.1 p.2)

theorem dims_even {g : Geo} {A B : Nat} (E : Even g A B) (i j : Nat)
    (hi : i < g.domR) (hj : j < g.domZ) :
    domDims g i j = ⟨A * i, B * j, A * (i+1), B * (j+1)⟩ := by
  have hr : 0 < g.domR := by omega
  have hz : 0 < g.domZ := by omega
  have h1 : ∀ k, A * g.domR * k / g.domR = A * k := fun k => by
    rw [Nat.mul_right_comm, Nat.mul_div_cancel _ hr]
  have h2 : ∀ k, B * g.domZ * k / g.domZ = B * k := fun k => by
    rw [Nat.mul_right_comm, Nat.mul_div_cancel _ hz]
  unfold domDims bound
  rw [E.nr, E.nz, h1, h1, h2, h2, E.offR, E.offZ]
  rfl

theorem collectSp_even {g : Geo} {A B : Nat} (E : Even g A B) (ids : List Nat) (nd : ids.Nodup)
    (i j : Nat) (hi : i < g.domR) (hj : j < g.domZ) (k : Nat) (hk : k < ids.length) (f : PF) :
    collectSp g i j k (ofF ids f) = .ok (ofF ids (fun a b id' =>
      if id' = ids[k] then stepF g A B (fun a b => f a b id') (i, j) a b else f a b id')) := by
  have hget : (ofF ids f i j)[k]? = some ⟨ids[k], f i j ids[k]⟩ := by
    unfold ofF
    rw [List.getElem?_map, List.getElem?_eq_getElem hk]
    rfl
  unfold collectSp
  rw [hget]
  dsimp only
  rw [dims_even E i j hi hj]
  dsimp only
  have e1 : A * (i + 1) - A * i = A := by rw [Nat.mul_succ]; omega
  have e2 : B * (j + 1) - B * j = B := by rw [Nat.mul_succ]; omega
  rw [e1, e2, loop_collectOne E, Res.ok_bind, List.nil_append]
  dsimp only
  congr 1
  have hset : (ofF ids (fun a b id' => f a b id' ++
      (if id' = ids[k] ∧ ¬ (a = i ∧ b = j) then mine g A B a b (f i j ids[k]) else [])) i j).set k
        ⟨ids[k], mine g A B i j (f i j ids[k])⟩
      = ids.map (fun id' => ⟨id', if id' = ids[k] then mine g A B i j (f i j id') else f i j id'⟩) := by
    apply List.ext_getElem
    · simp [ofF]
    · intro n h1 h2
      simp only [List.length_map] at h2
      rw [List.getElem_set]
      by_cases hn : k = n
      · subst hn
        simp
      · rw [if_neg hn]
        have : ids[n] ≠ ids[k] := fun e => hn ((List.Nodup.getElem_inj_iff nd).mp e.symm)
        simp [ofF, this]
  rw [hset, setDom_ofF]
  apply ofF_congr
  intro a b id' _
  unfold stepF
  dsimp only
  by_cases h : a = i ∧ b = j
  · rw [if_pos h, h.1, h.2]
    by_cases h' : id' = ids[k] <;> simp [h']
  · rw [if_neg h]
    by_cases h' : id' = ids[k]
    · subst h'
      rw [if_pos ⟨rfl, h⟩, if_pos rfl, if_neg h]
    · rw [if_neg (fun x => h' x.1), if_neg h', List.append_nil]

theorem loop_collectSp {g : Geo} {A B : Nat} (E : Even g A B) (ids : List Nat) (nd : ids.Nodup)
    (i j : Nat) (hi : i < g.domR) (hj : j < g.domZ) (l : List Nat) (hl : ∀ k ∈ l, k < ids.length)
    (ndl : l.Nodup) : ∀ f : PF,
    loop (collectSp g i j) l (ofF ids f) = .ok (ofF ids (fun a b id' =>
      if ∃ k ∈ l, ids[k]? = some id' then stepF g A B (fun a b => f a b id') (i, j) a b
      else f a b id')) := by
  induction l with
  | nil =>
    intro f
    rw [loop_nil]
    simp
  | cons k l ih =>
    intro f
    have hk : k < ids.length := hl k (by simp)
    rw [loop_cons, collectSp_even E ids nd i j hi hj k hk, Res.ok_bind,
      ih (fun k' h => hl k' (by simp [h])) (List.nodup_cons.mp ndl).2]
    congr 1
    apply ofF_congr
    intro a b id' _
    by_cases h1 : id' = ids[k]
    · have hno : ¬ ∃ k' ∈ l, ids[k']? = some id' := by
        rintro ⟨k', hk', e⟩
        have hlt := hl k' (by simp [hk'])
        rw [List.getElem?_eq_getElem hlt, h1] at e
        have := (List.Nodup.getElem_inj_iff nd).mp (Option.some.inj e)
        subst this
        exact (List.nodup_cons.mp ndl).1 hk'
      rw [if_neg hno, if_pos h1, if_pos]
      exact ⟨k, by simp, by rw [List.getElem?_eq_getElem hk, h1]⟩
    · by_cases h2 : ∃ k' ∈ l, ids[k']? = some id'
      · have h3 : ∃ k' ∈ k :: l, ids[k']? = some id' := by
          obtain ⟨k', a1, a2⟩ := h2
          exact ⟨k', by simp [a1], a2⟩
        rw [if_pos h2, if_pos h3]
        simp only [if_neg h1]
      · have h3 : ¬ ∃ k' ∈ k :: l, ids[k']? = some id' := by
          rintro ⟨k', a1, a2⟩
          rcases List.mem_cons.mp a1 with rfl | a1
          · rw [List.getElem?_eq_getElem hk] at a2
            exact h1 (Option.some.inj a2).symm
          · exact h2 ⟨k', a1, a2⟩
        rw [if_neg h2, if_neg h3, if_neg h1]

theorem collectDom_even {g : Geo} {A B : Nat} (E : Even g A B) (ids : List Nat) (nd : ids.Nodup)
    (p : Nat × Nat) (hp : p.1 < g.domR ∧ p.2 < g.domZ) (f : PF) :
    collectDom g p (ofF ids f) = .ok (ofF ids (fun a b id' =>
      stepF g A B (fun a b => f a b id') p a b)) := by
  unfold collectDom
  have hlen : (ofF ids f p.1 p.2).length = ids.length := by simp [ofF]
  rw [hlen, loop_collectSp E ids nd p.1 p.2 hp.1 hp.2 _ (by simp) List.nodup_range]
  congr 1
  apply ofF_congr
  intro a b id' hid
  rw [if_pos]
  obtain ⟨k, hk, e⟩ := List.getElem_of_mem hid
  exact ⟨k, by simpa using hk, by rw [List.getElem?_eq_getElem hk, e]⟩

theorem collect_even {g : Geo} {A B : Nat} (E : Even g A B) (ids : List Nat) (nd : ids.Nodup)
    (f : PF) : collect g (ofF ids f) = .ok (ofF ids (fun a b id' =>
      (sweep g.domR g.domZ).foldl (stepF g A B) (fun a b => f a b id') a b)) := by
  unfold collect
  have hm : ∀ p ∈ sweep g.domR g.domZ, p.1 < g.domR ∧ p.2 < g.domZ := fun p hp => mem_sweep.mp hp
  revert hm f
  induction sweep g.domR g.domZ with
  | nil => intro f _; rfl
  | cons p l ih =>
    intro f hm
    rw [loop_cons, collectDom_even E ids nd p (hm p (by simp)), Res.ok_bind,
      ih _ (fun q hq => hm q (by simp [hq]))]
    rfl

/-! ### The fold of `stepF` -/

theorem mine_append (g : Geo) (A B a b : Nat) (l l' : List Prt) :
    mine g A B a b (l ++ l') = mine g A B a b l ++ mine g A B a b l' := List.filter_append ..

theorem mine_mine_same (g : Geo) (A B a b : Nat) (l : List Prt) :
    mine g A B a b (mine g A B a b l) = mine g A B a b l := by
  simp [mine, List.filter_filter]

theorem mine_mine_ne (g : Geo) (A B a b a' b' : Nat) (h : ¬ (a' = a ∧ b' = b)) (l : List Prt) :
    mine g A B a' b' (mine g A B a b l) = [] := by
  unfold mine
  rw [List.filter_filter, List.filter_eq_nil_iff]
  intro o _
  simp only [Bool.and_eq_true, decide_eq_true_eq, not_and]
  intro h1 h2
  rw [h1] at h2
  obtain ⟨rfl, rfl⟩ := Prod.mk.inj (Option.some.inj h2)
  exact h ⟨rfl, rfl⟩

/-- Particles of `l` not owned by `(a, b)`. -/
def alien (g : Geo) (A B a b : Nat) (l : List Prt) : List Prt :=
  l.filter fun o => own g A B o ≠ some (a, b)

theorem alien_mine (g : Geo) (A B a b : Nat) (l : List Prt) :
    alien g A B a b (mine g A B a b l) = [] := by
  unfold alien mine
  rw [List.filter_filter, List.filter_eq_nil_iff]
  simp

theorem mine_alien_ne (g : Geo) (A B a b a' b' : Nat) (h : ¬ (a' = a ∧ b' = b)) (l : List Prt) :
    mine g A B a' b' (alien g A B a b l) = mine g A B a' b' l := by
  unfold alien mine
  rw [List.filter_filter]
  apply List.filter_congr
  intro o _
  by_cases h1 : own g A B o = some (a', b')
  · have : ¬ (own g A B o = some (a, b)) := by
      rw [h1]
      intro e
      obtain ⟨rfl, rfl⟩ := Prod.mk.inj (Option.some.inj e)
      exact h ⟨rfl, rfl⟩
    rw [h1] at this ⊢
    simp [this]
  · simp [h1]

theorem alien_append (g : Geo) (A B a b : Nat) (l l' : List Prt) :
    alien g A B a b (l ++ l') = alien g A B a b l ++ alien g A B a b l' := List.filter_append ..

theorem fold_stepF (g : Geo) (A B : Nat) (l : List (Nat × Nat)) (nd : l.Nodup) :
    ∀ f : Nat → Nat → List Prt, ∀ a b : Nat,
      (mine g A B a b (l.foldl (stepF g A B) f a b)).Perm
        (mine g A B a b (f a b) ++ (l.filter (fun p => p ≠ (a, b))).flatMap
          fun p => mine g A B a b (f p.1 p.2)) ∧
      alien g A B a b (l.foldl (stepF g A B) f a b)
        = if (a, b) ∈ l then [] else alien g A B a b (f a b) := by
  induction l with
  | nil => intro f a b; simp
  | cons p l ih =>
    intro f a b
    obtain ⟨hp, nd'⟩ := List.nodup_cons.mp nd
    obtain ⟨i1, i2⟩ := ih nd' (stepF g A B f p) a b
    rw [List.foldl_cons]
    constructor
    · refine i1.trans ?_
      -- contributions of the later domains are those of the initial lists
      have hrest : ∀ q ∈ l.filter (fun q => q ≠ (a, b)),
          mine g A B a b (stepF g A B f p q.1 q.2) = mine g A B a b (f q.1 q.2) := by
        rintro ⟨q1, q2⟩ hq
        obtain ⟨hq1, hq2⟩ := List.mem_filter.mp hq
        have hne : ¬ (q1 = p.1 ∧ q2 = p.2) := by
          rintro ⟨rfl, rfl⟩; exact hp hq1
        have hne' : ¬ (a = q1 ∧ b = q2) := by
          rintro ⟨rfl, rfl⟩; simp at hq2
        unfold stepF
        dsimp only
        rw [if_neg hne, mine_append, mine_mine_ne g A B q1 q2 a b hne', List.append_nil]
      have hflat : (l.filter (fun q => q ≠ (a, b))).flatMap
            (fun q => mine g A B a b (stepF g A B f p q.1 q.2))
          = (l.filter (fun q => q ≠ (a, b))).flatMap (fun q => mine g A B a b (f q.1 q.2)) :=
        List.flatMap_congr hrest
      rw [hflat]
      by_cases h : p = (a, b)
      · subst h
        rw [List.filter_cons_of_neg (by simp)]
        unfold stepF
        dsimp only
        rw [if_pos ⟨rfl, rfl⟩, mine_mine_same]
      · rw [List.filter_cons_of_pos (by simpa using h), List.flatMap_cons]
        have hne : ¬ (a = p.1 ∧ b = p.2) := by
          rintro ⟨rfl, rfl⟩; exact h rfl
        unfold stepF
        rw [if_neg hne, mine_append, mine_mine_same, List.append_assoc]
    · rw [i2]
      by_cases h : (a, b) ∈ l
      · rw [if_pos h, if_pos (by simp [h])]
      · rw [if_neg h]
        by_cases h' : (a, b) = p
        · rw [if_pos (by simp [h'])]
          subst h'
          unfold stepF
          dsimp only
          rw [if_pos ⟨rfl, rfl⟩, alien_mine]
        · rw [if_neg (by simp [h, h'])]
          have hne : ¬ (a = p.1 ∧ b = p.2) := by
            rintro ⟨rfl, rfl⟩; exact h' rfl
          unfold stepF
          rw [if_neg hne, alien_append, alien_mine, List.append_nil]

end SMB
end Pico
