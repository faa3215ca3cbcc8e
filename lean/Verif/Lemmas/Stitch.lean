import Verif.Lemmas.Halo

/-! Stitching of maps whose lower overlays are empty: every exchange of two neighbours adds the upper overlay of the one
to the cells of the other.  The exchanges may come in any order. -/

set_option linter.unusedSimpArgs false
set_option linter.unusedVariables false

namespace Pico
namespace SMB

variable {T : Type _}

open Classical in
/-- What the cells of a domain receive from the domain below. -/
noncomputable def gotX [Zero T] (os : Nat) (xs : Nat → Nat) (m : DLoc → T) (DX : Nat → Nat → Prop) (i j r c : Nat) : T :=
  if 0 < i ∧ DX (i-1) j ∧ r < 2*os then m (i-1, j, xs (i-1) + r, c) else 0

open Classical in
/-- What the cells of a domain receive from the domain to the left. -/
noncomputable def gotY [Zero T] (os : Nat) (ys : Nat → Nat) (m : DLoc → T) (DY : Nat → Nat → Prop) (i j r c : Nat) : T :=
  if 0 < j ∧ DY i (j-1) ∧ c < 2*os then m (i, j-1, r, ys (j-1) + c) else 0

/-- State of the exchanges: `DX`, `DY` tell which of them have been done. -/
structure Acc [AddCommMonoid T] (os : Nat) (xs ys : Nat → Nat) (nr nz : Nat) (m m' : DLoc → T) (DX DY : Nat → Nat → Prop) :
    Prop where
  log : ∀ i j r c, i < nr → j < nz → os ≤ r → r < xs i + os → os ≤ c → c < ys j + os →
    m' (i, j, r, c) = m (i, j, r, c) + gotX os xs m DX i j r c + gotY os ys m DY i j r c
  xh : ∀ i j r c, i < nr → j < nz → xs i + os ≤ r → r < xs i + 2*os → os ≤ c → c < ys j + os → ¬ DX i j →
    m' (i, j, r, c) = m (i, j, r, c)
  xl : ∀ i j r c, i < nr → j < nz → r < os → os ≤ c → c < ys j + os → ¬ (0 < i ∧ DX (i-1) j) → m' (i, j, r, c) = 0
  yh : ∀ i j r c, i < nr → j < nz → ys j + os ≤ c → c < ys j + 2*os → os ≤ r → r < xs i + os → ¬ DY i j →
    m' (i, j, r, c) = m (i, j, r, c)
  yl : ∀ i j r c, i < nr → j < nz → c < os → os ≤ r → r < xs i + os → ¬ (0 < j ∧ DY i (j-1)) → m' (i, j, r, c) = 0

section
variable [AddCommMonoid T]

theorem gotX_new {os : Nat} {xs : Nat → Nat} {m : DLoc → T} {DX : Nat → Nat → Prop} {a b r c : Nat} (hr : r < 2*os) :
    gotX os xs m (fun i j => DX i j ∨ (i = a ∧ j = b)) (a+1) b r c = m (a, b, xs a + r, c) := by
  unfold gotX
  rw [if_pos ⟨Nat.succ_pos a, Or.inr ⟨rfl, rfl⟩, hr⟩]
  rfl

theorem gotX_before {os : Nat} {xs : Nat → Nat} {m : DLoc → T} {DX : Nat → Nat → Prop} {a b r c : Nat} (hn : ¬ DX a b) :
    gotX os xs m DX (a+1) b r c = 0 := by
  unfold gotX
  rw [if_neg (by rintro ⟨_, h, _⟩; exact hn h)]

theorem gotX_same {os : Nat} {xs : Nat → Nat} {m : DLoc → T} {DX : Nat → Nat → Prop} {a b i j r c : Nat}
    (h : ¬ (i = a + 1 ∧ j = b ∧ r < 2*os)) :
    gotX os xs m (fun i j => DX i j ∨ (i = a ∧ j = b)) i j r c = gotX os xs m DX i j r c := by
  have e : (0 < i ∧ (DX (i-1) j ∨ (i-1 = a ∧ j = b)) ∧ r < 2*os) ↔ (0 < i ∧ DX (i-1) j ∧ r < 2*os) := by
    constructor
    · rintro ⟨h1, h2 | h2, h3⟩
      · exact ⟨h1, h2, h3⟩
      · exact absurd ⟨by omega, h2.2, h3⟩ h
    · rintro ⟨h1, h2, h3⟩
      exact ⟨h1, Or.inl h2, h3⟩
  unfold gotX
  split_ifs with u v v
  · rfl
  · exact absurd (e.mp u) v
  · exact absurd (e.mpr v) u
  · rfl

theorem gotY_new {os : Nat} {ys : Nat → Nat} {m : DLoc → T} {DY : Nat → Nat → Prop} {a b r c : Nat} (hc : c < 2*os) :
    gotY os ys m (fun i j => DY i j ∨ (i = a ∧ j = b)) a (b+1) r c = m (a, b, r, ys b + c) := by
  unfold gotY
  rw [if_pos ⟨Nat.succ_pos b, Or.inr ⟨rfl, rfl⟩, hc⟩]
  rfl

theorem gotY_before {os : Nat} {ys : Nat → Nat} {m : DLoc → T} {DY : Nat → Nat → Prop} {a b r c : Nat} (hn : ¬ DY a b) :
    gotY os ys m DY a (b+1) r c = 0 := by
  unfold gotY
  rw [if_neg (by rintro ⟨_, h, _⟩; exact hn h)]

theorem gotY_same {os : Nat} {ys : Nat → Nat} {m : DLoc → T} {DY : Nat → Nat → Prop} {a b i j r c : Nat}
    (h : ¬ (i = a ∧ j = b + 1 ∧ c < 2*os)) :
    gotY os ys m (fun i j => DY i j ∨ (i = a ∧ j = b)) i j r c = gotY os ys m DY i j r c := by
  have e : (0 < j ∧ (DY i (j-1) ∨ (i = a ∧ j-1 = b)) ∧ c < 2*os) ↔ (0 < j ∧ DY i (j-1) ∧ c < 2*os) := by
    constructor
    · rintro ⟨h1, h2 | h2, h3⟩
      · exact ⟨h1, h2, h3⟩
      · exact absurd ⟨h2.1, by omega, h3⟩ h
    · rintro ⟨h1, h2, h3⟩
      exact ⟨h1, Or.inl h2, h3⟩
  unfold gotY
  split_ifs with u v v
  · rfl
  · exact absurd (e.mp u) v
  · exact absurd (e.mpr v) u
  · rfl

theorem Acc.start (os : Nat) (xs ys : Nat → Nat) (nr nz : Nat) (m : DLoc → T)
    (hx : ∀ i j r c, i < nr → j < nz → r < os → os ≤ c → c < ys j + os → m (i, j, r, c) = 0)
    (hy : ∀ i j r c, i < nr → j < nz → c < os → os ≤ r → r < xs i + os → m (i, j, r, c) = 0) :
    Acc os xs ys nr nz m m (fun _ _ => False) (fun _ _ => False) := by
  constructor
  · intro i j r c _ _ _ _ _ _
    unfold gotX gotY
    simp
  · intros; rfl
  · intro i j r c h1 h2 h3 h4 h5 _
    exact hx i j r c h1 h2 h3 h4 h5
  · intros; rfl
  · intro i j r c h1 h2 h3 h4 h5 _
    exact hy i j r c h1 h2 h3 h4 h5

theorem Acc.stepX {os : Nat} {xs ys : Nat → Nat} {nr nz : Nat} {m m' : DLoc → T} {DX DY : Nat → Nat → Prop}
    (H : Acc os xs ys nr nz m m' DX DY) (hxs : ∀ i, i < nr → os ≤ xs i) (a b : Nat) (ha : a + 1 < nr) (hb : b < nz)
    (hn : ¬ DX a b) :
    Acc os xs ys nr nz m (stX os xs ys a b m') (fun i j => DX i j ∨ (i = a ∧ j = b)) DY := by
  have xa := hxs a (by omega)
  have xa1 := hxs (a+1) ha
  constructor
  · intro i j r c h1 h2 h3 h4 h5 h6
    by_cases hj : j = b
    · subst hj
      by_cases hi : i = a ∧ xs a ≤ r
      · obtain ⟨rfl, hr⟩ := hi
        rw [stX_pos ⟨rfl, h5, h6⟩ ⟨rfl, hr, by omega⟩,
          H.xl (i+1) j (r - xs i) c ha h2 (by omega) h5 h6 (by rintro ⟨_, h⟩; exact hn h), add_zero,
          H.log i j r c h1 h2 h3 h4 h5 h6, gotX_same (by omega)]
      · by_cases hi' : i = a + 1 ∧ r < 2*os
        · obtain ⟨rfl, hr⟩ := hi'
          rw [stX_pos' ⟨rfl, h5, h6⟩ ⟨rfl, hr⟩, H.xh a j (xs a + r) c (by omega) h2 (by omega) (by omega) h5 h6 hn,
            H.log (a+1) j r c h1 h2 h3 h4 h5 h6, gotX_new hr, gotX_before hn, add_zero, ← add_assoc,
            add_comm (m (a, j, xs a + r, c))]
        · rw [stX_neg (by omega), H.log i j r c h1 h2 h3 h4 h5 h6, gotX_same (by omega)]
    · rw [stX_neg (by omega), H.log i j r c h1 h2 h3 h4 h5 h6, gotX_same (by omega)]
  · intro i j r c h1 h2 h3 h4 h5 h6 hd
    have hd' : ¬ DX i j := fun h => hd (Or.inl h)
    have hne : ¬ (i = a ∧ j = b) := fun h => hd (Or.inr h)
    by_cases hi' : j = b ∧ i = a + 1 ∧ r < 2*os
    · have := hxs i h1
      omega
    · rw [stX_neg (by omega)]
      exact H.xh i j r c h1 h2 h3 h4 h5 h6 hd'
  · intro i j r c h1 h2 h3 h4 h5 hd
    have hd' : ¬ (0 < i ∧ DX (i-1) j) := fun h => hd ⟨h.1, Or.inl h.2⟩
    have hne : ¬ (i = a + 1 ∧ j = b) := fun h => hd ⟨by omega, Or.inr ⟨by omega, h.2⟩⟩
    rw [stX_neg (by omega)]
    exact H.xl i j r c h1 h2 h3 h4 h5 hd'
  · intro i j r c h1 h2 h3 h4 h5 h6 hd
    rw [stX_neg (by rintro ⟨⟨rfl, _, _⟩, _⟩; omega)]
    exact H.yh i j r c h1 h2 h3 h4 h5 h6 hd
  · intro i j r c h1 h2 h3 h4 h5 hd
    rw [stX_neg (by omega)]
    exact H.yl i j r c h1 h2 h3 h4 h5 hd

theorem Acc.stepY {os : Nat} {xs ys : Nat → Nat} {nr nz : Nat} {m m' : DLoc → T} {DX DY : Nat → Nat → Prop}
    (H : Acc os xs ys nr nz m m' DX DY) (hys : ∀ j, j < nz → os ≤ ys j) (a b : Nat) (ha : a < nr) (hb : b + 1 < nz)
    (hn : ¬ DY a b) :
    Acc os xs ys nr nz m (stY os xs ys a b m') DX (fun i j => DY i j ∨ (i = a ∧ j = b)) := by
  have xa := hys b (by omega)
  have xa1 := hys (b+1) hb
  constructor
  · intro i j r c h1 h2 h3 h4 h5 h6
    by_cases hi : i = a
    · subst hi
      by_cases hj : j = b ∧ ys b ≤ c
      · obtain ⟨rfl, hr⟩ := hj
        rw [stY_pos ⟨rfl, h3, h4⟩ ⟨rfl, hr, by omega⟩,
          H.yl i (j+1) r (c - ys j) h1 hb (by omega) h3 h4 (by rintro ⟨_, h⟩; exact hn h), add_zero,
          H.log i j r c h1 h2 h3 h4 h5 h6, gotY_same (by omega)]
      · by_cases hj' : j = b + 1 ∧ c < 2*os
        · obtain ⟨rfl, hr⟩ := hj'
          rw [stY_pos' ⟨rfl, h3, h4⟩ ⟨rfl, hr⟩, H.yh i b r (ys b + c) h1 (by omega) (by omega) (by omega) h3 h4 hn,
            H.log i (b+1) r c h1 h2 h3 h4 h5 h6, gotY_new hr, gotY_before hn, add_zero,
            add_comm (m (i, b, r, ys b + c))]
        · rw [stY_neg (by omega), H.log i j r c h1 h2 h3 h4 h5 h6, gotY_same (by omega)]
    · rw [stY_neg (by omega), H.log i j r c h1 h2 h3 h4 h5 h6, gotY_same (by omega)]
  · intro i j r c h1 h2 h3 h4 h5 h6 hd
    rw [stY_neg (by rintro ⟨⟨rfl, _, _⟩, _⟩; omega)]
    exact H.xh i j r c h1 h2 h3 h4 h5 h6 hd
  · intro i j r c h1 h2 h3 h4 h5 hd
    rw [stY_neg (by omega)]
    exact H.xl i j r c h1 h2 h3 h4 h5 hd
  · intro i j r c h1 h2 h3 h4 h5 h6 hd
    have hd' : ¬ DY i j := fun h => hd (Or.inl h)
    have hne : ¬ (i = a ∧ j = b) := fun h => hd (Or.inr h)
    by_cases hj' : i = a ∧ j = b + 1 ∧ c < 2*os
    · have := hys j h2
      omega
    · rw [stY_neg (by omega)]
      exact H.yh i j r c h1 h2 h3 h4 h5 h6 hd'
  · intro i j r c h1 h2 h3 h4 h5 hd
    have hd' : ¬ (0 < j ∧ DY i (j-1)) := fun h => hd ⟨h.1, Or.inl h.2⟩
    have hne : ¬ (i = a ∧ j = b + 1) := fun h => hd ⟨by omega, Or.inr ⟨h.1, by omega⟩⟩
    rw [stY_neg (by omega)]
    exact H.yl i j r c h1 h2 h3 h4 h5 hd'

theorem gotX_congr {os : Nat} {xs : Nat → Nat} {nr nz : Nat} {m : DLoc → T} {D E : Nat → Nat → Prop}
    (h : ∀ i j, i + 1 < nr → j < nz → (D i j ↔ E i j)) {i j r c : Nat} (hi : i < nr) (hj : j < nz) :
    gotX os xs m D i j r c = gotX os xs m E i j r c := by
  have e : (0 < i ∧ D (i-1) j ∧ r < 2*os) ↔ (0 < i ∧ E (i-1) j ∧ r < 2*os) := by
    constructor
    · rintro ⟨h1, h2, h3⟩
      exact ⟨h1, (h _ _ (by omega) hj).mp h2, h3⟩
    · rintro ⟨h1, h2, h3⟩
      exact ⟨h1, (h _ _ (by omega) hj).mpr h2, h3⟩
  unfold gotX
  split_ifs with u v v
  · rfl
  · exact absurd (e.mp u) v
  · exact absurd (e.mpr v) u
  · rfl

theorem gotY_congr {os : Nat} {ys : Nat → Nat} {nr nz : Nat} {m : DLoc → T} {D E : Nat → Nat → Prop}
    (h : ∀ i j, i < nr → j + 1 < nz → (D i j ↔ E i j)) {i j r c : Nat} (hi : i < nr) (hj : j < nz) :
    gotY os ys m D i j r c = gotY os ys m E i j r c := by
  have e : (0 < j ∧ D i (j-1) ∧ c < 2*os) ↔ (0 < j ∧ E i (j-1) ∧ c < 2*os) := by
    constructor
    · rintro ⟨h1, h2, h3⟩
      exact ⟨h1, (h _ _ hi (by omega)).mp h2, h3⟩
    · rintro ⟨h1, h2, h3⟩
      exact ⟨h1, (h _ _ hi (by omega)).mpr h2, h3⟩
  unfold gotY
  split_ifs with u v v
  · rfl
  · exact absurd (e.mp u) v
  · exact absurd (e.mpr v) u
  · rfl

/-- Only exchanges that exist count. -/
theorem Acc.mono {os : Nat} {xs ys : Nat → Nat} {nr nz : Nat} {m m' : DLoc → T} {DX DY EX EY : Nat → Nat → Prop}
    (H : Acc os xs ys nr nz m m' DX DY) (h1 : ∀ i j, i + 1 < nr → j < nz → (DX i j ↔ EX i j))
    (h1' : ∀ i j, i < nr → j < nz → DX i j → EX i j)
    (h2 : ∀ i j, i < nr → j + 1 < nz → (DY i j ↔ EY i j)) (h2' : ∀ i j, i < nr → j < nz → DY i j → EY i j) :
    Acc os xs ys nr nz m m' EX EY := by
  constructor
  · intro i j r c a b x1 x2 x3 x4
    rw [H.log i j r c a b x1 x2 x3 x4, gotX_congr h1 a b, gotY_congr h2 a b]
  · intro i j r c a b x1 x2 x3 x4 hd
    exact H.xh i j r c a b x1 x2 x3 x4 (fun h => hd (h1' i j a b h))
  · intro i j r c a b x1 x2 x3 hd
    exact H.xl i j r c a b x1 x2 x3 (fun h => hd ⟨h.1, h1' _ _ (by omega) b h.2⟩)
  · intro i j r c a b x1 x2 x3 x4 hd
    exact H.yh i j r c a b x1 x2 x3 x4 (fun h => hd (h2' i j a b h))
  · intro i j r c a b x1 x2 x3 hd
    exact H.yl i j r c a b x1 x2 x3 (fun h => hd ⟨h.1, h2' _ _ a (by omega) h.2⟩)

/-- Exchange with both neighbours, on memory. -/
def stXthenY (os : Nat) (xs ys : Nat → Nat) (nr nz : Nat) (m : DLoc → T) (p : Nat × Nat) : DLoc → T :=
  let m₁ := if p.1 + 1 < nr then stX os xs ys p.1 p.2 m else m
  if p.2 + 1 < nz then stY os xs ys p.1 p.2 m₁ else m₁

theorem Acc.stepAt {os : Nat} {xs ys : Nat → Nat} {nr nz : Nat} {m m' : DLoc → T} {D : Nat → Nat → Prop}
    (H : Acc os xs ys nr nz m m' D D) (hxs : ∀ i, i < nr → os ≤ xs i) (hys : ∀ j, j < nz → os ≤ ys j) (p : Nat × Nat)
    (hp : p.1 < nr ∧ p.2 < nz) (hn : ¬ D p.1 p.2) :
    Acc os xs ys nr nz m (stXthenY os xs ys nr nz m' p) (fun i j => D i j ∨ (i = p.1 ∧ j = p.2))
      (fun i j => D i j ∨ (i = p.1 ∧ j = p.2)) := by
  obtain ⟨a, b⟩ := p
  dsimp only at hp hn ⊢
  have H1 : Acc os xs ys nr nz m (if a + 1 < nr then stX os xs ys a b m' else m')
      (fun i j => D i j ∨ (i = a ∧ j = b)) D := by
    by_cases h : a + 1 < nr
    · rw [if_pos h]
      exact H.stepX hxs a b h hp.2 hn
    · rw [if_neg h]
      exact H.mono (fun i j h1 h2 => ⟨Or.inl, fun k => k.resolve_right (by omega)⟩) (fun _ _ _ _ => Or.inl)
        (fun _ _ _ _ => Iff.rfl) (fun _ _ _ _ => id)
  unfold stXthenY
  dsimp only
  generalize (if a + 1 < nr then stX os xs ys a b m' else m') = m1 at H1 ⊢
  by_cases h : b + 1 < nz
  · rw [if_pos h]
    exact H1.stepY hys a b hp.1 h hn
  · rw [if_neg h]
    exact H1.mono (fun _ _ _ _ => Iff.rfl) (fun _ _ _ _ => id)
      (fun i j h1 h2 => ⟨Or.inl, fun k => k.resolve_right (by omega)⟩) (fun _ _ _ _ => Or.inl)

/-- Every domain visited once, in any order. -/
theorem pass_acc (os : Nat) (xs ys : Nat → Nat) (nr nz : Nat) (hxs : ∀ i, i < nr → os ≤ xs i)
    (hys : ∀ j, j < nz → os ≤ ys j) (m : DLoc → T)
    (hx : ∀ i j r c, i < nr → j < nz → r < os → os ≤ c → c < ys j + os → m (i, j, r, c) = 0)
    (hy : ∀ i j r c, i < nr → j < nz → c < os → os ≤ r → r < xs i + os → m (i, j, r, c) = 0)
    (l : List (Nat × Nat)) (hl : ∀ i j, (i, j) ∈ l ↔ i < nr ∧ j < nz) (nd : l.Nodup) :
    Acc os xs ys nr nz m (l.foldl (stXthenY os xs ys nr nz) m) (fun i j => i < nr ∧ j < nz)
      (fun i j => i < nr ∧ j < nz) := by
  have key : ∀ l : List (Nat × Nat), (∀ p ∈ l, p.1 < nr ∧ p.2 < nz) → l.Nodup →
      ∀ (m' : DLoc → T) (D : Nat → Nat → Prop), (∀ p ∈ l, ¬ D p.1 p.2) → Acc os xs ys nr nz m m' D D →
      Acc os xs ys nr nz m (l.foldl (stXthenY os xs ys nr nz) m') (fun i j => D i j ∨ (i, j) ∈ l)
        (fun i j => D i j ∨ (i, j) ∈ l) := by
    intro l
    induction l with
    | nil =>
      intro _ _ m' D _ H
      exact H.mono (fun i j _ _ => ⟨Or.inl, fun k => k.resolve_right List.not_mem_nil⟩) (fun _ _ _ _ => Or.inl)
        (fun i j _ _ => ⟨Or.inl, fun k => k.resolve_right List.not_mem_nil⟩) (fun _ _ _ _ => Or.inl)
    | cons p l ih =>
      intro hl nd m' D hD H
      obtain ⟨n1, n2⟩ := List.nodup_cons.mp nd
      have H1 := H.stepAt hxs hys p (hl p List.mem_cons_self) (hD p List.mem_cons_self)
      have H2 := ih (fun q hq => hl q (List.mem_cons_of_mem _ hq)) n2 _ _ (by
        intro q hq hh
        rcases hh with hh | hh
        · exact hD q (List.mem_cons_of_mem _ hq) hh
        · have : q = p := Prod.ext hh.1 hh.2
          rw [this] at hq
          exact n1 hq) H1
      have eq : ∀ i j, (D i j ∨ i = p.1 ∧ j = p.2) ∨ (i, j) ∈ l ↔ D i j ∨ (i, j) ∈ p :: l := by
        intro i j
        obtain ⟨a, b⟩ := p
        simp only [List.mem_cons, Prod.mk.injEq]
        tauto
      rw [List.foldl_cons]
      exact H2.mono (fun i j _ _ => eq i j) (fun i j _ _ => (eq i j).mp) (fun i j _ _ => eq i j)
        (fun i j _ _ => (eq i j).mp)
  have := key l (fun p hp => (hl p.1 p.2).mp hp) nd m (fun _ _ => False) (fun _ _ => id)
    (Acc.start os xs ys nr nz m hx hy)
  have e : ∀ i j, (False ∨ (i, j) ∈ l) ↔ i < nr ∧ j < nz := by
    intro i j
    rw [hl]
    simp
  exact this.mono (fun i j _ _ => e i j) (fun i j _ _ => (e i j).mp) (fun i j _ _ => e i j) (fun i j _ _ => (e i j).mp)

end

end SMB
end Pico
