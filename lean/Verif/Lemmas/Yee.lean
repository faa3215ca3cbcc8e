import Verif.Model.Yee
import Verif.Lemmas.SMB
import Mathlib.Tactic.Ring
import Mathlib.Tactic.FieldSimp
import Mathlib.Tactic.Linarith
import Mathlib.Tactic.Positivity

set_option linter.unusedSimpArgs false
set_option linter.unusedVariables false

namespace Pico
namespace Yee

variable {K : Type _}

/-- Fold of steps with disjoint footprints that additionally read components nobody writes. -/
theorem fold_cells {ι : Type _} (own : ι → Comp → Int → Int → Prop) (RO : Comp → Prop)
    (step : Mem K → ι → Mem K) (l : List ι)
    (hframe : ∀ a ∈ l, ∀ s c i k, ¬ own a c i k → step s a c i k = s c i k)
    (hRO : ∀ a ∈ l, ∀ c i k, own a c i k → ¬ RO c)
    (hlocal : ∀ a ∈ l, ∀ s s' : Mem K, (∀ c i k, RO c → s c i k = s' c i k) →
      (∀ c i k, own a c i k → s c i k = s' c i k) →
      ∀ c i k, own a c i k → step s a c i k = step s' a c i k)
    (hdis : ∀ a ∈ l, ∀ b ∈ l, ∀ c i k, own a c i k → own b c i k → a = b)
    (nd : l.Nodup) (s : Mem K) :
    (∀ a ∈ l, ∀ c i k, own a c i k → l.foldl step s c i k = step s a c i k) ∧
    (∀ c i k, (∀ a ∈ l, ¬ own a c i k) → l.foldl step s c i k = s c i k) := by
  induction l generalizing s with
  | nil => exact ⟨fun a h => by simp at h, fun c i k _ => rfl⟩
  | cons b l ih =>
    have hn := List.nodup_cons.mp nd
    have hb : b ∈ b :: l := List.mem_cons_self
    have ih' := ih (fun a m => hframe a (List.mem_cons_of_mem _ m))
      (fun a m => hRO a (List.mem_cons_of_mem _ m))
      (fun a m => hlocal a (List.mem_cons_of_mem _ m))
      (fun a m b m' => hdis a (List.mem_cons_of_mem _ m) b (List.mem_cons_of_mem _ m'))
      hn.2 (step s b)
    refine ⟨?_, ?_⟩
    · intro a ha c i k ho
      rcases List.mem_cons.mp ha with rfl | ha'
      · rw [List.foldl_cons, ih'.2 c i k]
        intro d hd hod
        have := hdis a hb d (List.mem_cons_of_mem _ hd) c i k ho hod
        subst this
        exact hn.1 hd
      · rw [List.foldl_cons, ih'.1 a ha' c i k ho]
        refine hlocal a ha (step s b) s ?_ ?_ c i k ho
        · intro c i k hro
          exact hframe b hb s c i k (fun h => hRO b hb c i k h hro)
        · intro c i k hoa
          refine hframe b hb s c i k (fun h => ?_)
          have := hdis a ha b hb c i k hoa h
          subst this
          exact hn.1 ha'
    · intro c i k hno
      rw [List.foldl_cons, ih'.2 c i k (fun a m => hno a (List.mem_cons_of_mem _ m))]
      exact hframe b hb s c i k (hno b hb)

theorem rd_ok {p : Par K} {m : Mem K} {c : Comp} {i k : Int} (h : p.inside i k) :
    rd p m c i k = .ok (m c i k) := if_pos h

theorem upd_ok {p : Par K} {m : Mem K} {c : Comp} {i k : Int} {f : K → K} (h : p.inside i k) :
    upd p m c i k f = .ok (put m c i k (f (m c i k))) := if_pos h

theorem put_same (m : Mem K) (c : Comp) (i k : Int) (v : K) : put m c i k v c i k = v :=
  if_pos ⟨rfl, rfl, rfl⟩

theorem put_comp (m : Mem K) {c c' : Comp} (i k i' k' : Int) (v : K) (h : c' ≠ c) :
    put m c i k v c' i' k' = m c' i' k' := if_neg (fun x => h x.1)

section
variable [Field K]

/-- Time step of `H_r` at `(i, k)`. -/
def aR (p : Par K) (m : Mem K) (i k : Int) : K := p.dt * (m .ep i (k + 1) - m .ep i k) / (p.dz * p.mu)
/-- Time step of `H_phi`. -/
def aP (p : Par K) (m : Mem K) (i k : Int) : K :=
  p.dt * ((m .ez (i + 1) k - m .ez i k) / p.dr - (m .er i (k + 1) - m .er i k) / p.dz) / p.mu
/-- Minus the time step of `H_z`. -/
def aZ (p : Par K) (m : Mem K) (i k : Int) : K :=
  p.dt * ((m .ep (i + 1) k + m .ep i k) / (2 * p.dr * ((i : K) + 1/2 + p.r0)) +
    (m .ep (i + 1) k - m .ep i k) / p.dr) / p.mu

def hWallStep (p : Par K) (m : Mem K) (k : Nat) : Mem K :=
  let i : Int := (p.nr : Int) - 1
  put (put m .fr i k (m .hr i k + aR p m i k / 2)) .hr i k (m .hr i k + aR p m i k)

def hStep (p : Par K) (m : Mem K) (q : Nat × Nat) : Mem K :=
  let i : Int := q.1
  let k : Int := q.2
  put (put (put (put (put (put m .fr i k (m .hr i k + aR p m i k / 2)) .hr i k (m .hr i k + aR p m i k))
    .fp i k (m .hp i k + aP p m i k / 2)) .hp i k (m .hp i k + aP p m i k))
    .fz i k (m .hz i k - aZ p m i k / 2)) .hz i k (m .hz i k - aZ p m i k)

theorem hWallBody_ok (p : Par K) (k : Nat) (hr : 1 ≤ p.nr) (hk : k < p.nz) (m : Mem K) :
    hWallBody p k m = .ok (hWallStep p m k) := by
  have a1 : p.inside ((p.nr : Int) - 1) (k : Int) := by unfold Par.inside; omega
  have a2 : p.inside ((p.nr : Int) - 1) ((k : Int) + 1) := by unfold Par.inside; omega
  unfold hWallBody
  simp only [rd_ok a1, rd_ok a2, Res.ok_bind, upd_ok a1]
  rfl

theorem hBody_ok (p : Par K) (q : Nat × Nat) (h1 : q.1 < p.nr) (h2 : q.2 < p.nz) (m : Mem K) :
    hBody p q m = .ok (hStep p m q) := by
  have a1 : p.inside (q.1 : Int) (q.2 : Int) := by unfold Par.inside; omega
  have a2 : p.inside (q.1 : Int) ((q.2 : Int) + 1) := by unfold Par.inside; omega
  have a3 : p.inside ((q.1 : Int) + 1) (q.2 : Int) := by unfold Par.inside; omega
  unfold hBody
  simp only [rd_ok a1, rd_ok a2, rd_ok a3, Res.ok_bind, upd_ok a1]
  unfold hStep aP aR aZ
  simp only [Int.cast_natCast]
  simp (disch := decide) only [put_comp]

def isH (c : Comp) : Prop := c = .hr ∨ c = .hp ∨ c = .hz ∨ c = .fr ∨ c = .fp ∨ c = .fz
def isE (c : Comp) : Prop := c = .er ∨ c = .ep ∨ c = .ez

theorem aR_congr {p : Par K} {m m' : Mem K} (h : ∀ c i k, ¬ isH c → m c i k = m' c i k) (i k : Int) :
    aR p m i k = aR p m' i k := by
  unfold aR
  rw [h .ep _ _ (by unfold isH; decide), h .ep _ _ (by unfold isH; decide)]

theorem aP_congr {p : Par K} {m m' : Mem K} (h : ∀ c i k, ¬ isH c → m c i k = m' c i k) (i k : Int) :
    aP p m i k = aP p m' i k := by
  unfold aP
  rw [h .ez _ _ (by unfold isH; decide), h .ez _ _ (by unfold isH; decide),
    h .er _ _ (by unfold isH; decide), h .er _ _ (by unfold isH; decide)]

theorem aZ_congr {p : Par K} {m m' : Mem K} (h : ∀ c i k, ¬ isH c → m c i k = m' c i k) (i k : Int) :
    aZ p m i k = aZ p m' i k := by
  unfold aZ
  rw [h .ep _ _ (by unfold isH; decide), h .ep _ _ (by unfold isH; decide)]

theorem hStep_at (p : Par K) (m : Mem K) (q : Nat × Nat) :
    hStep p m q .hr q.1 q.2 = m .hr q.1 q.2 + aR p m q.1 q.2 ∧
    hStep p m q .hp q.1 q.2 = m .hp q.1 q.2 + aP p m q.1 q.2 ∧
    hStep p m q .hz q.1 q.2 = m .hz q.1 q.2 - aZ p m q.1 q.2 ∧
    hStep p m q .fr q.1 q.2 = m .hr q.1 q.2 + aR p m q.1 q.2 / 2 ∧
    hStep p m q .fp q.1 q.2 = m .hp q.1 q.2 + aP p m q.1 q.2 / 2 ∧
    hStep p m q .fz q.1 q.2 = m .hz q.1 q.2 - aZ p m q.1 q.2 / 2 := by
  unfold hStep
  refine ⟨?_, ?_, ?_, ?_, ?_, ?_⟩ <;> simp (disch := decide) only [put_comp, put_same]

theorem hStep_frame (p : Par K) (m : Mem K) (q : Nat × Nat) (c : Comp) (i k : Int)
    (h : ¬ (isH c ∧ i = q.1 ∧ k = q.2)) : hStep p m q c i k = m c i k := by
  unfold hStep put
  unfold isH at h
  rw [if_neg (by tauto), if_neg (by tauto), if_neg (by tauto), if_neg (by tauto), if_neg (by tauto),
    if_neg (by tauto)]

/-- The regular loop of `calc_field_h`. -/
theorem hLoop (p : Par K) (m : Mem K) :
    ∃ m', loop (hBody p) (idx2 0 p.nr 0 p.nz) m = .ok m' ∧
      (∀ c i k, ¬ (isH c ∧ p.logical i k) → m' c i k = m c i k) ∧
      (∀ i k, p.logical i k →
        m' .hr i k = m .hr i k + aR p m i k ∧ m' .hp i k = m .hp i k + aP p m i k ∧
        m' .hz i k = m .hz i k - aZ p m i k ∧ m' .fr i k = m .hr i k + aR p m i k / 2 ∧
        m' .fp i k = m .hp i k + aP p m i k / 2 ∧ m' .fz i k = m .hz i k - aZ p m i k / 2) := by
  have hl := (loop_eq_foldl (hBody p) (hStep p) (fun _ => True) (idx2 0 p.nr 0 p.nz)
    (fun q hq s _ => hBody_ok p q (mem_idx2.mp hq).1.2 (mem_idx2.mp hq).2.2 s)
    (fun _ _ _ _ => trivial) m trivial).1
  have hf := fold_cells (fun (q : Nat × Nat) c i k => isH c ∧ i = q.1 ∧ k = q.2) (fun c => ¬ isH c) (hStep p)
    (idx2 0 p.nr 0 p.nz) (fun q _ s c i k h => hStep_frame p s q c i k h)
    (fun q _ c i k h hro => hro h.1)
    (by
      intro q _ s s' h1 h2 c i k h3
      obtain ⟨hc, rfl, rfl⟩ := h3
      have e1 := hStep_at p s q
      have e2 := hStep_at p s' q
      have c1 := h2 .hr q.1 q.2 ⟨by unfold isH; decide, rfl, rfl⟩
      have c2 := h2 .hp q.1 q.2 ⟨by unfold isH; decide, rfl, rfl⟩
      have c3 := h2 .hz q.1 q.2 ⟨by unfold isH; decide, rfl, rfl⟩
      rw [aR_congr h1, aP_congr h1, aZ_congr h1, c1, c2, c3] at e1
      obtain ⟨a1, a2, a3, a4, a5, a6⟩ := e1
      obtain ⟨b1, b2, b3, b4, b5, b6⟩ := e2
      rcases hc with rfl | rfl | rfl | rfl | rfl | rfl
      · rw [a1, b1]
      · rw [a2, b2]
      · rw [a3, b3]
      · rw [a4, b4]
      · rw [a5, b5]
      · rw [a6, b6])
    (by
      rintro ⟨a, b⟩ _ ⟨a', b'⟩ _ c i k ⟨_, h1, h2⟩ ⟨_, h3, h4⟩
      dsimp only at *
      exact Prod.ext (by dsimp only; omega) (by dsimp only; omega))
    (nodup_idx2 _ _ _ _) m
  refine ⟨_, hl, ?_, ?_⟩
  · intro c i k h
    refine hf.2 c i k ?_
    rintro q hq ⟨hc, rfl, rfl⟩
    have := mem_idx2.mp hq
    exact h ⟨hc, by unfold Par.logical; omega⟩
  · intro i k hik
    unfold Par.logical at hik
    have hq : (i.toNat, k.toNat) ∈ idx2 0 p.nr 0 p.nz := by rw [mem_idx2]; dsimp only; omega
    have ei : ((i.toNat : Nat) : Int) = i := by omega
    have ek : ((k.toNat : Nat) : Int) = k := by omega
    have h := hf.1 _ hq
    dsimp only at h
    rw [ei, ek] at h
    have hs := hStep_at p m (i.toNat, k.toNat)
    dsimp only at hs
    rw [ei, ek] at hs
    obtain ⟨b1, b2, b3, b4, b5, b6⟩ := hs
    refine ⟨?_, ?_, ?_, ?_, ?_, ?_⟩
    · rw [h .hr i k ⟨by unfold isH; decide, rfl, rfl⟩, b1]
    · rw [h .hp i k ⟨by unfold isH; decide, rfl, rfl⟩, b2]
    · rw [h .hz i k ⟨by unfold isH; decide, rfl, rfl⟩, b3]
    · rw [h .fr i k ⟨by unfold isH; decide, rfl, rfl⟩, b4]
    · rw [h .fp i k ⟨by unfold isH; decide, rfl, rfl⟩, b5]
    · rw [h .fz i k ⟨by unfold isH; decide, rfl, rfl⟩, b6]

theorem hWallStep_frame (p : Par K) (m : Mem K) (k : Nat) (c : Comp) (i k' : Int)
    (h : ¬ ((c = .hr ∨ c = .fr) ∧ i = (p.nr : Int) - 1 ∧ k' = k)) : hWallStep p m k c i k' = m c i k' := by
  unfold hWallStep put
  rw [if_neg (by tauto), if_neg (by tauto)]

theorem hWallStep_at (p : Par K) (m : Mem K) (k : Nat) :
    hWallStep p m k .hr ((p.nr : Int) - 1) k = m .hr ((p.nr : Int) - 1) k + aR p m ((p.nr : Int) - 1) k ∧
    hWallStep p m k .fr ((p.nr : Int) - 1) k = m .hr ((p.nr : Int) - 1) k + aR p m ((p.nr : Int) - 1) k / 2 := by
  unfold hWallStep
  refine ⟨?_, ?_⟩ <;> simp (disch := decide) only [put_comp, put_same]

/-- The loop over the outer wall. -/
theorem hWallLoop (p : Par K) (hr : 1 ≤ p.nr) (m : Mem K) :
    ∃ m', loop (hWallBody p) (List.range' 0 p.nz) m = .ok m' ∧
      (∀ (c : Comp) (i k : Int), ¬ ((c = .hr ∨ c = .fr) ∧ i = (p.nr : Int) - 1 ∧ 0 ≤ k ∧ k < p.nz) → m' c i k = m c i k) ∧
      (∀ k : Int, 0 ≤ k → k < p.nz → m' .hr ((p.nr : Int) - 1) k
        = m .hr ((p.nr : Int) - 1) k + aR p m ((p.nr : Int) - 1) k) := by
  have hl := (loop_eq_foldl (hWallBody p) (hWallStep p) (fun _ => True) (List.range' 0 p.nz)
    (fun q hq s _ => hWallBody_ok p q hr (by have := List.mem_range'_1.mp hq; omega) s)
    (fun _ _ _ _ => trivial) m trivial).1
  have hf := fold_cells (fun (q : Nat) c i k => (c = .hr ∨ c = .fr) ∧ i = (p.nr : Int) - 1 ∧ k = q)
    (fun c => ¬ isH c) (hWallStep p)
    (List.range' 0 p.nz) (fun q _ s c i k h => hWallStep_frame p s q c i k h)
    (by
      rintro q _ c i k ⟨h, _⟩ hro
      apply hro
      unfold isH
      tauto)
    (by
      intro q _ s s' h1 h2 c i k h3
      obtain ⟨hc, rfl, rfl⟩ := h3
      have e1 := hWallStep_at p s q
      have e2 := hWallStep_at p s' q
      have c1 := h2 .hr ((p.nr : Int) - 1) q ⟨Or.inl rfl, rfl, rfl⟩
      rw [aR_congr h1, c1] at e1
      rcases hc with rfl | rfl
      · rw [e1.1, e2.1]
      · rw [e1.2, e2.2])
    (by
      intro a _ a' _ c i k ⟨_, _, h2⟩ ⟨_, _, h4⟩
      omega)
    List.nodup_range' m
  refine ⟨_, hl, ?_, ?_⟩
  · intro c i k h
    refine hf.2 c i k ?_
    rintro q hq ⟨hc, rfl, rfl⟩
    have := List.mem_range'_1.mp hq
    exact h ⟨hc, rfl, by omega, by omega⟩
  · intro k h0 h1
    have hq : k.toNat ∈ List.range' 0 p.nz := List.mem_range'_1.mpr (by omega)
    have ek : ((k.toNat : Nat) : Int) = k := by omega
    have h := hf.1 _ hq .hr ((p.nr : Int) - 1) k ⟨Or.inl rfl, rfl, by omega⟩
    rw [h]
    have := (hWallStep_at p m k.toNat).1
    rw [ek] at this
    exact this

theorem overlay0_logical (p : Par K) (cs : List Comp) (m : Mem K) (c : Comp) {i k : Int}
    (h : p.logical i k) : overlay0 p cs m c i k = m c i k := if_neg (fun x => x.2.2 h)

theorem overlay0_other (p : Par K) (cs : List Comp) (m : Mem K) {c : Comp} (i k : Int)
    (h : c ∉ cs) : overlay0 p cs m c i k = m c i k := if_neg (fun x => h x.1)

/-- Closed form of `calc_field_h`. -/
theorem calcH_eq (p : Par K) (hr : 1 ≤ p.nr) (m : Mem K) :
    ∃ m', calcH p m = .ok m' ∧
      (∀ c i k, ¬ isH c → m' c i k = m c i k) ∧
      (∀ i k, p.logical i k →
        (let w := if p.walls.rr = true ∧ i = (p.nr : Int) - 1 then aR p m i k else 0
         m' .hr i k = m .hr i k + w + aR p m i k ∧ m' .fr i k = m .hr i k + w + aR p m i k / 2) ∧
        m' .hp i k = m .hp i k + aP p m i k ∧ m' .fp i k = m .hp i k + aP p m i k / 2 ∧
        m' .hz i k = m .hz i k - aZ p m i k ∧ m' .fz i k = m .hz i k - aZ p m i k / 2) ∧
      (∀ c i k, isH c → p.inside i k → ¬ p.logical i k → m' c i k = 0) := by
  let m0 := overlay0 p [.hr, .hp, .hz] (overlay0 p [.fr, .fp, .fz] m)
  have z1 : ∀ c i k, ¬ isH c → m0 c i k = m c i k := by
    intro c i k h
    show overlay0 p _ (overlay0 p _ m) c i k = _
    unfold isH at h
    rw [overlay0_other p _ _ i k (by simp only [List.mem_cons, List.not_mem_nil, or_false]; tauto),
      overlay0_other p _ _ i k (by simp only [List.mem_cons, List.not_mem_nil, or_false]; tauto)]
  have z2 : ∀ c i k, p.logical i k → m0 c i k = m c i k := by
    intro c i k h
    show overlay0 p _ (overlay0 p _ m) c i k = _
    rw [overlay0_logical p _ _ _ h, overlay0_logical p _ _ _ h]
  have z3 : ∀ c i k, isH c → p.inside i k → ¬ p.logical i k → m0 c i k = 0 := by
    intro c i k h hin hnl
    show overlay0 p _ (overlay0 p _ m) c i k = _
    unfold overlay0
    rcases h with rfl | rfl | rfl | rfl | rfl | rfl <;> simp [hin, hnl]
  have hw : ∃ m1, (if p.walls.rr then loop (hWallBody p) (List.range' 0 p.nz) m0 else .ok m0) = .ok m1 ∧
      (∀ c i k, ¬ (isH c ∧ p.logical i k) → m1 c i k = m0 c i k) ∧
      (∀ i k, p.logical i k → m1 .hr i k = m .hr i k +
          (if p.walls.rr = true ∧ i = (p.nr : Int) - 1 then aR p m i k else 0) ∧
        m1 .hp i k = m .hp i k ∧ m1 .hz i k = m .hz i k) := by
    by_cases hrr : p.walls.rr = true
    · obtain ⟨m1, e, f1, f2⟩ := hWallLoop p hr m0
      refine ⟨m1, by rw [if_pos hrr, e], ?_, ?_⟩
      · intro c i k h
        refine f1 c i k ?_
        rintro ⟨hc, hi, hk1, hk2⟩
        exact h ⟨by unfold isH; tauto, by unfold Par.logical; omega⟩
      · intro i k hl
        refine ⟨?_, ?_, ?_⟩
        · by_cases hi : i = (p.nr : Int) - 1
          · have hk := hl.2
            rw [if_pos ⟨hrr, hi⟩, hi, f2 k hk.1 hk.2, ← aR_congr z1, ← hi, z2 _ _ _ hl]
          · rw [if_neg (fun x => hi x.2), add_zero, f1 _ _ _ (fun x => hi x.2.1), z2 _ _ _ hl]
        · rw [f1 .hp i k (by rintro ⟨h | h, _⟩ <;> exact nomatch h), z2 _ _ _ hl]
        · rw [f1 .hz i k (by rintro ⟨h | h, _⟩ <;> exact nomatch h), z2 _ _ _ hl]
    · refine ⟨m0, by rw [if_neg hrr], fun c i k _ => rfl, ?_⟩
      intro i k hl
      rw [if_neg (fun x => hrr x.1), add_zero]
      exact ⟨z2 _ _ _ hl, z2 _ _ _ hl, z2 _ _ _ hl⟩
  obtain ⟨m1, e1, g1, g2⟩ := hw
  obtain ⟨m2, e2, k1, k2⟩ := hLoop p m1
  have same : ∀ c i k, ¬ isH c → m1 c i k = m c i k := fun c i k h => by
    rw [g1 c i k (fun x => h x.1), z1 c i k h]
  refine ⟨m2, ?_, ?_, ?_, ?_⟩
  · show ((if p.walls.rr = true then loop (hWallBody p) (List.range' 0 p.nz) m0 else Res.ok m0) >>=
      fun m => loop (hBody p) (idx2 0 p.nr 0 p.nz) m) = _
    rw [e1, Res.ok_bind, e2]
  · intro c i k h
    rw [k1 c i k (fun x => h x.1), same c i k h]
  · intro i k hl
    obtain ⟨a1, a2, a3, a4, a5, a6⟩ := k2 i k hl
    obtain ⟨b1, b2, b3⟩ := g2 i k hl
    rw [aR_congr same] at a1 a4
    rw [aP_congr same] at a2 a5
    rw [aZ_congr same] at a3 a6
    dsimp only
    rw [a1, a2, a3, a4, a5, a6, b1, b2, b3]
    exact ⟨⟨rfl, rfl⟩, rfl, rfl, rfl, rfl⟩
  · intro c i k h hin hnl
    rw [k1 c i k (fun x => hnl x.2), g1 c i k (fun x => hnl x.2), z3 c i k h hin hnl]

/-! ### Electric field -/

def xR (p : Par K) (m : Mem K) (i k : Int) : K := m .jr i k + (m .hp i k - m .hp i (k - 1)) / p.dz
def xP (p : Par K) (m : Mem K) (i k : Int) : K :=
  m .jp i k - (m .hr i k - m .hr i (k - 1)) / p.dz + (m .hz i k - m .hz (i - 1) k) / p.dr
def xZ (p : Par K) (m : Mem K) (i k : Int) : K :=
  m .jz i k - (m .hp i k - m .hp (i - 1) k) / p.dr - (m .hp i k + m .hp (i - 1) k) / (2 * p.dr * ((i : K) + p.r0))
def xA (p : Par K) (m : Mem K) (i k : Int) : K := m .jz i k - m .hp i k * 4 / p.dr

/-- New value of a component: old value damped, minus curl and current. -/
def newE (p : Par K) (m : Mem K) (i k : Int) (old x : K) : K :=
  old * koefE p (m .eps i k) (m .sig i k) - x * koefH p (m .eps i k) (m .sig i k)

/-- Simultaneous update of the components `W` at one node. -/
def eStep (p : Par K) (W : Comp → Bool) (X : Comp → Mem K → Int → Int → K) (m : Mem K) (q : Int × Int) :
    Mem K := fun c i k =>
  if W c = true ∧ i = q.1 ∧ k = q.2 then newE p m i k (m c i k) (X c m i k) else m c i k

theorem relax_ok (p : Par K) (m : Mem K) (c : Comp) (i k : Int) (ke kh x : K) (h : p.inside i k) :
    relax p m c i k ke kh x = .ok (put m c i k (m c i k * ke - x * kh)) := by
  unfold relax
  rw [upd_ok h, Res.ok_bind, upd_ok h, put_same]
  congr 1
  funext c' i' k'
  unfold put
  split <;> rfl

/-- A loop of simultaneous node updates at different nodes. -/
theorem eLoop {ι : Type _} (p : Par K) (body : ι → Mem K → Res (Mem K)) (l : List ι) (nd : l.Nodup)
    (loc : ι → Int × Int) (inj : ∀ a ∈ l, ∀ b ∈ l, loc a = loc b → a = b) (W : Comp → Bool)
    (hW : ∀ c, W c = true → isE c) (X : Comp → Mem K → Int → Int → K)
    (hX : ∀ c m m', (∀ c i k, ¬ isE c → m c i k = m' c i k) → ∀ i k, X c m i k = X c m' i k)
    (hb : ∀ a ∈ l, ∀ m, body a m = .ok (eStep p W X m (loc a))) (m : Mem K) :
    ∃ m', loop body l m = .ok m' ∧
      (∀ c i k, W c = true → (∃ a ∈ l, loc a = (i, k)) → m' c i k = newE p m i k (m c i k) (X c m i k)) ∧
      (∀ c i k, ¬ (W c = true ∧ ∃ a ∈ l, loc a = (i, k)) → m' c i k = m c i k) := by
  have hl := (loop_eq_foldl body (fun m a => eStep p W X m (loc a)) (fun _ => True) l
    (fun a ha s _ => hb a ha s) (fun _ _ _ _ => trivial) m trivial).1
  have hf := fold_cells (fun (a : ι) c i k => W c = true ∧ i = (loc a).1 ∧ k = (loc a).2)
    (fun c => ¬ isE c) (fun m a => eStep p W X m (loc a)) l
    (fun a _ s c i k h => if_neg h)
    (fun a _ c i k h hro => hro (hW c h.1))
    (by
      intro a _ s s' h1 h2 c i k h3
      have hc := h2 c i k h3
      unfold eStep
      rw [if_pos h3, if_pos h3, hX c s s' h1, hc]
      unfold newE
      rw [h1 .eps i k (by unfold isE; decide), h1 .sig i k (by unfold isE; decide)])
    (by
      intro a ha b hb' c i k h1 h2
      exact inj a ha b hb' (Prod.ext (h1.2.1.symm.trans h2.2.1) (h1.2.2.symm.trans h2.2.2)))
    nd m
  refine ⟨_, hl, ?_, ?_⟩
  · rintro c i k hc ⟨a, ha, e⟩
    rw [hf.1 a ha c i k ⟨hc, by rw [e], by rw [e]⟩]
    exact if_pos ⟨hc, by rw [e], by rw [e]⟩
  · intro c i k h
    refine hf.2 c i k ?_
    rintro a ha ⟨hc, h1, h2⟩
    exact h ⟨hc, a, ha, Prod.ext h1.symm h2.symm⟩

def wAxis : Comp → Bool | .er => true | .ez => true | _ => false
def wLeft : Comp → Bool | .ez => true | _ => false
def wReg : Comp → Bool | .er => true | .ep => true | .ez => true | _ => false
def XAxis (p : Par K) : Comp → Mem K → Int → Int → K | .er => xR p | _ => xA p
def XReg (p : Par K) : Comp → Mem K → Int → Int → K | .er => xR p | .ep => xP p | _ => xZ p

theorem eAxisBody_ok (p : Par K) (k : Nat) (hr : 1 ≤ p.nr) (hk : k < p.nz) (m : Mem K) :
    eAxisBody p k m = .ok (eStep p wAxis (XAxis p) m (0, (k : Int))) := by
  have a1 : p.inside 0 (k : Int) := by unfold Par.inside; omega
  have a2 : p.inside 0 ((k : Int) - 1) := by unfold Par.inside; omega
  unfold eAxisBody
  simp only [rd_ok a1, rd_ok a2, Res.ok_bind, relax_ok p _ _ _ _ _ _ _ a1]
  simp (disch := decide) only [put_comp]
  congr 1
  funext c i k'
  unfold eStep newE put
  by_cases h : i = 0 ∧ k' = (k : Int)
  · obtain ⟨rfl, rfl⟩ := h
    cases c <;> simp [wAxis, XAxis, xR, xA]
  · simp only [h, and_false, if_false]

theorem ezPart_ok (p : Par K) (i k : Nat) (hi : i < p.nr) (hk : k < p.nz) (m m0 : Mem K)
    (h : m0 .eps i k = m .eps i k ∧ m0 .sig i k = m .sig i k) :
    ezPart p i k (m0 .eps i k) (m0 .sig i k) m = .ok (eStep p wLeft (XReg p) m ((i : Int), (k : Int))) := by
  have a1 : p.inside (i : Int) (k : Int) := by unfold Par.inside; omega
  have a2 : p.inside ((i : Int) - 1) (k : Int) := by unfold Par.inside; omega
  unfold ezPart
  simp only [rd_ok a1, rd_ok a2, Res.ok_bind, relax_ok p _ _ _ _ _ _ _ a1, h.1, h.2]
  congr 1
  funext c i' k'
  unfold eStep newE put
  by_cases h : i' = (i : Int) ∧ k' = (k : Int)
  · obtain ⟨rfl, rfl⟩ := h
    cases c <;> simp [wLeft, XReg, xZ]
  · simp only [h, and_false, if_false]

theorem eLeftBody_ok (p : Par K) (i : Nat) (hi : i < p.nr) (hz : 1 ≤ p.nz) (m : Mem K) :
    eLeftBody p i m = .ok (eStep p wLeft (XReg p) m ((i : Int), 0)) := by
  have a1 : p.inside (i : Int) 0 := by unfold Par.inside; omega
  unfold eLeftBody
  rw [rd_ok a1, Res.ok_bind, rd_ok a1, Res.ok_bind]
  exact ezPart_ok p i 0 hi (by omega) m m ⟨rfl, rfl⟩

theorem eBody_ok (p : Par K) (q : Nat × Nat) (h1 : q.1 < p.nr) (h2 : q.2 < p.nz) (m : Mem K) :
    eBody p q m = .ok (eStep p wReg (XReg p) m ((q.1 : Int), (q.2 : Int))) := by
  have a1 : p.inside (q.1 : Int) (q.2 : Int) := by unfold Par.inside; omega
  have a2 : p.inside (q.1 : Int) ((q.2 : Int) - 1) := by unfold Par.inside; omega
  have a3 : p.inside ((q.1 : Int) - 1) (q.2 : Int) := by unfold Par.inside; omega
  unfold eBody
  simp only [rd_ok a1, rd_ok a2, rd_ok a3, Res.ok_bind, relax_ok p _ _ _ _ _ _ _ a1]
  rw [ezPart_ok p q.1 q.2 h1 h2 _ m (by
    constructor <;> simp (disch := decide) only [put_comp])]
  simp (disch := decide) only [put_comp]
  congr 1
  funext c i k'
  unfold eStep newE put
  by_cases h : i = (q.1 : Int) ∧ k' = (q.2 : Int)
  · obtain ⟨rfl, rfl⟩ := h
    cases c <;> simp [wLeft, wReg, XReg, xR, xP, xZ]
  · simp only [h, and_false, if_false]

theorem XAxis_congr (p : Par K) : ∀ c m m', (∀ c i k, ¬ isE c → m c i k = m' c i k) →
    ∀ i k, XAxis p c m i k = XAxis p c m' i k := by
  intro c m m' h i k
  have e : ∀ c i k, (decide (c = Comp.er ∨ c = .ep ∨ c = .ez)) = false → m c i k = m' c i k := by
    intro c i k hc
    exact h c i k (by unfold isE; exact of_decide_eq_false hc)
  cases c <;> simp only [XAxis, xR, xA, e .jr _ _ (by decide), e .hp _ _ (by decide), e .jz _ _ (by decide)]

theorem XReg_congr (p : Par K) : ∀ c m m', (∀ c i k, ¬ isE c → m c i k = m' c i k) →
    ∀ i k, XReg p c m i k = XReg p c m' i k := by
  intro c m m' h i k
  have e : ∀ c i k, (decide (c = Comp.er ∨ c = .ep ∨ c = .ez)) = false → m c i k = m' c i k := by
    intro c i k hc
    exact h c i k (by unfold isE; exact of_decide_eq_false hc)
  cases c <;> simp only [XReg, xR, xP, xZ, e .jr _ _ (by decide), e .hp _ _ (by decide), e .jz _ _ (by decide),
    e .jp _ _ (by decide), e .hr _ _ (by decide), e .hz _ _ (by decide)]

theorem end_lt (w : Bool) {n : Nat} (h : 1 ≤ n) (h' : n < 2 ^ 32) :
    end_ w n = if w then n - 1 else n := by
  unfold end_
  split
  · omega
  · rfl

theorem end_le (w : Bool) {n : Nat} (h : 1 ≤ n) (h' : n < 2 ^ 32) : end_ w n ≤ n := by
  rw [end_lt w h h']; split <;> omega

/-- The memory after clearing the overlay of E, as seen by the loops. -/
def cleanE (p : Par K) (m : Mem K) : Mem K := overlay0 p [.er, .ep, .ez] m

/-- Closed form of `calc_field_e`. -/
theorem calcE_eq (p : Par K) (hr : 1 ≤ p.nr) (hr' : p.nr < 2 ^ 32) (hz : 1 ≤ p.nz) (hz' : p.nz < 2 ^ 32)
    (m : Mem K) :
    let rb : Int := begin_ p.walls.r0
    let zb : Int := begin_ p.walls.z0
    let re : Int := end_ p.walls.rr p.nr
    let ze : Int := end_ p.walls.zz p.nz
    ∃ m', calcE p m = .ok m' ∧
      (∀ c i k, ¬ isE c → m' c i k = m c i k) ∧
      (∀ c i k, isE c → p.inside i k → ¬ p.logical i k → m' c i k = 0) ∧
      (∀ i k, p.logical i k →
        m' .er i k = (if (zb ≤ k ∧ k < ze) ∧ ((rb ≤ i ∧ i < re) ∨ (p.walls.r0 = true ∧ i = 0))
          then newE p m i k (m .er i k) (xR p m i k) else m .er i k) ∧
        m' .ep i k = (if (zb ≤ k ∧ k < ze) ∧ (rb ≤ i ∧ i < re)
          then newE p m i k (m .ep i k) (xP p m i k) else m .ep i k) ∧
        m' .ez i k = (if (rb ≤ i ∧ i < re) ∧ ((zb ≤ k ∧ k < ze) ∨ (p.walls.z0 = true ∧ k = 0))
          then newE p m i k (m .ez i k) (xZ p m i k)
          else if (p.walls.r0 = true ∧ i = 0) ∧ (zb ≤ k ∧ k < ze)
          then newE p m i k (m .ez i k) (xA p m i k) else m .ez i k)) := by
  intro rb zb re ze
  have reN := end_le p.walls.rr hr hr'
  have zeN := end_le p.walls.zz hz hz'
  let m0 := cleanE p m
  have z1 : ∀ c i k, ¬ isE c → m0 c i k = m c i k := by
    intro c i k h
    unfold isE at h
    exact overlay0_other p _ _ i k (by simp only [List.mem_cons, List.not_mem_nil, or_false]; tauto)
  have z2 : ∀ c i k, p.logical i k → m0 c i k = m c i k := fun c i k h => overlay0_logical p _ _ _ h
  have z3 : ∀ c i k, isE c → p.inside i k → ¬ p.logical i k → m0 c i k = 0 := by
    intro c i k h hin hnl
    refine if_pos ⟨?_, hin, hnl⟩
    unfold isE at h
    simp only [List.mem_cons, List.not_mem_nil, or_false]
    exact h
  -- axis
  have hA : ∃ m1, (if p.walls.r0 then loop (eAxisBody p) (List.range' (begin_ p.walls.z0)
      (end_ p.walls.zz p.nz - begin_ p.walls.z0)) m0 else .ok m0) = .ok m1 ∧
      (∀ c i k, wAxis c = true → (p.walls.r0 = true ∧ i = 0) ∧ (zb ≤ k ∧ k < ze) →
        m1 c i k = newE p m0 i k (m0 c i k) (XAxis p c m0 i k)) ∧
      (∀ c i k, ¬ (wAxis c = true ∧ (p.walls.r0 = true ∧ i = 0) ∧ (zb ≤ k ∧ k < ze)) → m1 c i k = m0 c i k) := by
    by_cases hw : p.walls.r0 = true
    · obtain ⟨m1, e, f1, f2⟩ := eLoop p (eAxisBody p) (List.range' (begin_ p.walls.z0)
        (end_ p.walls.zz p.nz - begin_ p.walls.z0)) List.nodup_range' (fun k => (0, (k : Int)))
        (fun a _ b _ h => by have := (Prod.mk.inj h).2; omega) wAxis
        (by intro c h; cases c <;> first | (unfold isE; decide) | exact nomatch h) (XAxis p) (XAxis_congr p)
        (fun k hk s => eAxisBody_ok p k hr (by have := List.mem_range'_1.mp hk; omega) s) m0
      have key : ∀ i k : Int, (∃ a ∈ List.range' (begin_ p.walls.z0)
          (end_ p.walls.zz p.nz - begin_ p.walls.z0), ((0 : Int), (a : Int)) = (i, k)) ↔
          i = 0 ∧ (zb ≤ k ∧ k < ze) := by
        intro i k
        constructor
        · rintro ⟨a, ha, h⟩
          have h1 := (Prod.mk.inj h).1
          have h2 := (Prod.mk.inj h).2
          have := List.mem_range'_1.mp ha
          exact ⟨h1.symm, by omega, by omega⟩
        · rintro ⟨rfl, h1, h2⟩
          refine ⟨k.toNat, List.mem_range'_1.mpr (by omega), Prod.ext rfl (by dsimp only; omega)⟩
      refine ⟨m1, by rw [if_pos hw, e], ?_, ?_⟩
      · intro c i k hc h
        exact f1 c i k hc ((key i k).mpr ⟨h.1.2, h.2⟩)
      · intro c i k h
        refine f2 c i k ?_
        rintro ⟨hc, hk⟩
        have := (key i k).mp hk
        exact h ⟨hc, ⟨hw, this.1⟩, this.2⟩
    · exact ⟨m0, by rw [if_neg hw], fun c i k _ h => absurd h.1.1 hw, fun c i k _ => rfl⟩
  obtain ⟨m1, e1, f1, f2⟩ := hA
  -- left wall
  have hL : ∃ m2, (if p.walls.z0 then loop (eLeftBody p) (List.range' (begin_ p.walls.r0)
      (end_ p.walls.rr p.nr - begin_ p.walls.r0)) m1 else .ok m1) = .ok m2 ∧
      (∀ c i k, wLeft c = true → (p.walls.z0 = true ∧ k = 0) ∧ (rb ≤ i ∧ i < re) →
        m2 c i k = newE p m1 i k (m1 c i k) (XReg p c m1 i k)) ∧
      (∀ c i k, ¬ (wLeft c = true ∧ (p.walls.z0 = true ∧ k = 0) ∧ (rb ≤ i ∧ i < re)) → m2 c i k = m1 c i k) := by
    by_cases hw : p.walls.z0 = true
    · obtain ⟨m2, e, f1, f2⟩ := eLoop p (eLeftBody p) (List.range' (begin_ p.walls.r0)
        (end_ p.walls.rr p.nr - begin_ p.walls.r0)) List.nodup_range' (fun i => ((i : Int), 0))
        (fun a _ b _ h => by have := (Prod.mk.inj h).1; omega) wLeft
        (by intro c h; cases c <;> first | (unfold isE; decide) | exact nomatch h) (XReg p) (XReg_congr p)
        (fun k hk s => eLeftBody_ok p k (by have := List.mem_range'_1.mp hk; omega) hz s) m1
      have key : ∀ i k : Int, (∃ a ∈ List.range' (begin_ p.walls.r0)
          (end_ p.walls.rr p.nr - begin_ p.walls.r0), ((a : Int), (0 : Int)) = (i, k)) ↔
          k = 0 ∧ (rb ≤ i ∧ i < re) := by
        intro i k
        constructor
        · rintro ⟨a, ha, h⟩
          have h1 := (Prod.mk.inj h).1
          have h2 := (Prod.mk.inj h).2
          have := List.mem_range'_1.mp ha
          exact ⟨h2.symm, by omega, by omega⟩
        · rintro ⟨rfl, h1, h2⟩
          refine ⟨i.toNat, List.mem_range'_1.mpr (by omega), Prod.ext (by dsimp only; omega) rfl⟩
      refine ⟨m2, by rw [if_pos hw, e], ?_, ?_⟩
      · intro c i k hc h
        exact f1 c i k hc ((key i k).mpr ⟨h.1.2, h.2⟩)
      · intro c i k h
        refine f2 c i k ?_
        rintro ⟨hc, hk⟩
        have := (key i k).mp hk
        exact h ⟨hc, ⟨hw, this.1⟩, this.2⟩
    · exact ⟨m1, by rw [if_neg hw], fun c i k _ h => absurd h.1.1 hw, fun c i k _ => rfl⟩
  obtain ⟨m2, e2, g1, g2⟩ := hL
  -- regular
  obtain ⟨m3, e3, k1, k2⟩ := eLoop p (eBody p) (idx2 (begin_ p.walls.r0) (end_ p.walls.rr p.nr)
      (begin_ p.walls.z0) (end_ p.walls.zz p.nz)) (nodup_idx2 _ _ _ _) (fun q => ((q.1 : Int), (q.2 : Int)))
    (fun a _ b _ h => Prod.ext (by have := (Prod.mk.inj h).1; omega) (by have := (Prod.mk.inj h).2; omega)) wReg
    (by intro c h; cases c <;> first | (unfold isE; decide) | exact nomatch h) (XReg p) (XReg_congr p)
    (fun q hq s => eBody_ok p q (by have := mem_idx2.mp hq; omega) (by have := mem_idx2.mp hq; omega) s) m2
  have keyR : ∀ i k : Int, (∃ a ∈ idx2 (begin_ p.walls.r0) (end_ p.walls.rr p.nr)
      (begin_ p.walls.z0) (end_ p.walls.zz p.nz), ((a.1 : Int), (a.2 : Int)) = (i, k)) ↔
      (rb ≤ i ∧ i < re) ∧ (zb ≤ k ∧ k < ze) := by
    intro i k
    constructor
    · rintro ⟨a, ha, h⟩
      have h1 := (Prod.mk.inj h).1
      have h2 := (Prod.mk.inj h).2
      have := mem_idx2.mp ha
      omega
    · rintro ⟨⟨h1, h2⟩, h3, h4⟩
      refine ⟨(i.toNat, k.toNat), mem_idx2.mpr (by dsimp only; omega),
        Prod.ext (by dsimp only; omega) (by dsimp only; omega)⟩
  have n1 : ∀ c i k, ¬ isE c → m1 c i k = m0 c i k := by
    intro c i k h
    refine f2 c i k (fun x => h ?_)
    have := x.1
    cases c <;> first | (unfold isE; decide) | exact nomatch this
  have n2 : ∀ c i k, ¬ isE c → m2 c i k = m1 c i k := by
    intro c i k h
    refine g2 c i k (fun x => h ?_)
    have := x.1
    cases c <;> first | (unfold isE; decide) | exact nomatch this
  have n3 : ∀ c i k, ¬ isE c → m3 c i k = m2 c i k := by
    intro c i k h
    refine k2 c i k (fun x => h ?_)
    have := x.1
    cases c <;> first | (unfold isE; decide) | exact nomatch this
  have N1 : ∀ c i k, ¬ isE c → m1 c i k = m c i k := fun c i k h => by rw [n1 c i k h, z1 c i k h]
  have N2 : ∀ c i k, ¬ isE c → m2 c i k = m c i k := fun c i k h => by rw [n2 c i k h, N1 c i k h]
  have newE_congr : ∀ s : Mem K, (∀ c i k, ¬ isE c → s c i k = m c i k) → ∀ i k old x,
      newE p s i k old x = newE p m i k old x := by
    intro s hs i k old x
    unfold newE
    rw [hs .eps i k (by unfold isE; decide), hs .sig i k (by unfold isE; decide)]
  have rbv : rb = if p.walls.r0 = true then 1 else 0 := by
    show ((begin_ p.walls.r0 : Nat) : Int) = _
    unfold begin_; split <;> rfl
  have zbv : zb = if p.walls.z0 = true then 1 else 0 := by
    show ((begin_ p.walls.z0 : Nat) : Int) = _
    unfold begin_; split <;> rfl
  have rb0 : p.walls.r0 = true → rb = 1 := fun h => by rw [rbv, if_pos h]
  have zb0 : p.walls.z0 = true → zb = 1 := fun h => by rw [zbv, if_pos h]
  refine ⟨m3, ?_, ?_, ?_, ?_⟩
  · show ((if p.walls.r0 = true then loop (eAxisBody p) (List.range' (begin_ p.walls.z0)
      (end_ p.walls.zz p.nz - begin_ p.walls.z0)) m0 else .ok m0) >>= fun m =>
      (if p.walls.z0 = true then loop (eLeftBody p) (List.range' (begin_ p.walls.r0)
      (end_ p.walls.rr p.nr - begin_ p.walls.r0)) m else .ok m) >>= fun m =>
      loop (eBody p) (idx2 (begin_ p.walls.r0) (end_ p.walls.rr p.nr)
      (begin_ p.walls.z0) (end_ p.walls.zz p.nz)) m) = _
    rw [e1, Res.ok_bind, e2, Res.ok_bind, e3]
  · intro c i k h
    rw [n3 c i k h, N2 c i k h]
  · intro c i k h hin hnl
    have q1 : ¬ ((rb ≤ i ∧ i < re) ∧ (zb ≤ k ∧ k < ze)) := by
      intro x; apply hnl; unfold Par.logical; omega
    have q2 : ¬ ((p.walls.z0 = true ∧ k = 0) ∧ (rb ≤ i ∧ i < re)) := by
      intro x; apply hnl; unfold Par.logical; omega
    have q3 : ¬ ((p.walls.r0 = true ∧ i = 0) ∧ (zb ≤ k ∧ k < ze)) := by
      intro x; apply hnl; unfold Par.logical; omega
    rw [k2 c i k (fun x => q1 ((keyR i k).mp x.2)), g2 c i k (fun x => q2 x.2), f2 c i k (fun x => q3 x.2),
      z3 c i k h hin hnl]
  · intro i k hl
    have zl := fun c => z2 c i k hl
    refine ⟨?_, ?_, ?_⟩
    · -- er
      have hg : m2 .er i k = m1 .er i k := g2 _ _ _ (fun x => nomatch x.1)
      by_cases hreg : (rb ≤ i ∧ i < re) ∧ (zb ≤ k ∧ k < ze)
      · rw [if_pos ⟨hreg.2, Or.inl hreg.1⟩, k1 .er i k rfl ((keyR i k).mpr hreg), newE_congr m2 N2,
          XReg_congr p .er m2 m N2, hg, f2 .er i k (by rintro ⟨_, ⟨h1, h2⟩, _⟩; have := rb0 h1; omega), zl]
        rfl
      · rw [k2 .er i k (fun x => hreg ((keyR i k).mp x.2)), hg]
        by_cases hax : (p.walls.r0 = true ∧ i = 0) ∧ (zb ≤ k ∧ k < ze)
        · rw [if_pos ⟨hax.2, Or.inr hax.1⟩, f1 .er i k rfl hax, newE_congr m0 z1, XAxis_congr p .er m0 m z1, zl]
          rfl
        · rw [if_neg (by tauto), f2 .er i k (fun x => hax x.2), zl]
    · have hg : m2 .ep i k = m .ep i k := by
        rw [g2 .ep i k (fun x => nomatch x.1), f2 .ep i k (fun x => nomatch x.1), zl]
      by_cases hreg : (rb ≤ i ∧ i < re) ∧ (zb ≤ k ∧ k < ze)
      · rw [if_pos ⟨hreg.2, hreg.1⟩, k1 .ep i k rfl ((keyR i k).mpr hreg), newE_congr m2 N2,
          XReg_congr p .ep m2 m N2, hg]
        rfl
      · rw [k2 .ep i k (fun x => hreg ((keyR i k).mp x.2)), hg, if_neg (by tauto)]
    · by_cases hreg : (rb ≤ i ∧ i < re) ∧ (zb ≤ k ∧ k < ze)
      · rw [if_pos ⟨hreg.1, Or.inl hreg.2⟩, k1 .ez i k rfl ((keyR i k).mpr hreg), newE_congr m2 N2,
          XReg_congr p .ez m2 m N2, g2 .ez i k (by rintro ⟨_, ⟨h1, h2⟩, _⟩; have := zb0 h1; omega),
          f2 .ez i k (by rintro ⟨_, ⟨h1, h2⟩, _⟩; have := rb0 h1; omega), zl]
        rfl
      · rw [k2 .ez i k (fun x => hreg ((keyR i k).mp x.2))]
        by_cases hlf : (p.walls.z0 = true ∧ k = 0) ∧ (rb ≤ i ∧ i < re)
        · rw [if_pos ⟨hlf.2, Or.inr hlf.1⟩, g1 .ez i k rfl hlf, newE_congr m1 N1, XReg_congr p .ez m1 m N1,
            f2 .ez i k (by rintro ⟨_, ⟨h1, h2⟩, _⟩; have := rb0 h1; omega), zl]
          rfl
        · rw [g2 .ez i k (fun x => hlf x.2), if_neg (by tauto)]
          by_cases hax : (p.walls.r0 = true ∧ i = 0) ∧ (zb ≤ k ∧ k < ze)
          · rw [if_pos hax, f1 .ez i k rfl hax, newE_congr m0 z1, XAxis_congr p .ez m0 m z1, zl]
            rfl
          · rw [if_neg hax, f2 .ez i k (fun x => hax x.2), zl]

end

end Yee
end Pico
