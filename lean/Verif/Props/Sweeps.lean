import Verif.Props.Collector

/-!
# C11 (hand-over), C67 (overlays) — concurrent visits of one colour sweep

The OpenMP threads of one colour sweep process different visits `(i, j)` of that colour
concurrently.  `block p` is the set of domains a visit of the overlay passes may
access.  It is proved that this really is a footprint (nothing else is written, and
what is written depends on nothing else), that footprints of two visits of the same
colour are disjoint, and hence that the order of the visits is irrelevant.
For the particle hand-over the claim is false.
-/

namespace Pico
namespace SMB

variable {T : Type _}

/-- Domains a visit at `p` may access. -/
def block (p : Nat × Nat) (a b : Nat) : Prop :=
  (a = p.1 ∨ a = p.1 + 1) ∧ (b = p.2 ∨ b = p.2 + 1)

/-- Agreement of two states on a set of domains. -/
def AgreeOn (S : Nat → Nat → Prop) (D₁ D₂ : Domains T) : Prop := ∀ a b, S a b → D₁ a b = D₂ a b

/-- `f` reads and writes only the domains of `S`. -/
def Footprint (S : Nat → Nat → Prop) (f : Domains T → Res (Domains T)) : Prop :=
  (∀ D D', f D = .ok D' → ∀ a b, ¬ S a b → D' a b = D a b) ∧
  (∀ D₁ D₂ D₁', AgreeOn S D₁ D₂ → f D₁ = .ok D₁' → ∃ D₂', f D₂ = .ok D₂' ∧ AgreeOn S D₁' D₂')

theorem footprint_pure (S : Nat → Nat → Prop) : Footprint S (fun D : Domains T => .ok D) :=
  ⟨fun _ _ h _ _ _ => by rw [Res.ok.inj h],
   fun _ D₂ _ h e => ⟨D₂, rfl, by rw [← Res.ok.inj e]; exact h⟩⟩

theorem footprint_bind (S : Nat → Nat → Prop) (f g : Domains T → Res (Domains T))
    (hf : Footprint S f) (hg : Footprint S g) : Footprint S (fun D => f D >>= g) := by
  constructor
  · intro D D' h a b hab
    dsimp only at h
    cases e : f D with
    | ok D₁ =>
      rw [e, Res.ok_bind] at h
      rw [hg.1 _ _ h a b hab, hf.1 _ _ e a b hab]
    | fatal => rw [e] at h; exact nomatch h
    | ub => rw [e] at h; exact nomatch h
  · intro D₁ D₂ D₁' hag h
    dsimp only at h ⊢
    cases e : f D₁ with
    | ok E =>
      rw [e, Res.ok_bind] at h
      obtain ⟨E', e1, e2⟩ := hf.2 _ _ _ hag e
      obtain ⟨E'', e3, e4⟩ := hg.2 _ _ _ e2 h
      exact ⟨E'', by rw [e1, Res.ok_bind, e3], e4⟩
    | fatal => rw [e] at h; exact nomatch h
    | ub => rw [e] at h; exact nomatch h

theorem footprint_pair (S : Nat → Nat → Prop) (i j i' j' : Nat) (h : S i j) (h' : S i' j')
    (op : Grid T → Grid T → Res (Grid T × Grid T)) :
    Footprint S (fun D => op (D i j) (D i' j') >>= fun p =>
      pure (setD (setD D i j p.1) i' j' p.2)) := by
  constructor
  · intro D D' e a b hab
    dsimp only at e
    cases ho : op (D i j) (D i' j') with
    | ok p =>
      rw [ho, Res.ok_bind, Res.pure_eq] at e
      rw [← Res.ok.inj e]
      unfold setD
      rw [if_neg (by rintro ⟨rfl, rfl⟩; exact hab h'), if_neg (by rintro ⟨rfl, rfl⟩; exact hab h)]
    | fatal => rw [ho] at e; exact nomatch e
    | ub => rw [ho] at e; exact nomatch e
  · intro D₁ D₂ D₁' hag e
    dsimp only at e ⊢
    rw [← hag i j h, ← hag i' j' h']
    cases ho : op (D₁ i j) (D₁ i' j') with
    | ok p =>
      rw [ho, Res.ok_bind, Res.pure_eq] at e
      refine ⟨_, rfl, ?_⟩
      rw [← Res.ok.inj e]
      intro a b hab
      unfold setD
      by_cases c1 : a = i' ∧ b = j'
      · rw [if_pos c1, if_pos c1]
      · rw [if_neg c1, if_neg c1]
        by_cases c2 : a = i ∧ b = j
        · rw [if_pos c2, if_pos c2]
        · rw [if_neg c2, if_neg c2, hag a b hab]
    | fatal => rw [ho] at e; exact nomatch e
    | ub => rw [ho] at e; exact nomatch e

theorem footprint_ite (S : Nat → Nat → Prop) (c : Prop) [Decidable c]
    (f g : Domains T → Res (Domains T)) (hf : Footprint S f) (hg : Footprint S g) :
    Footprint S (fun D => if c then f D else g D) := by
  by_cases h : c
  · simpa only [h, if_true] using hf
  · simpa only [h, if_false] using hg

/-- The visit at `p` accesses only its block. -/
theorem C67_footprint [Add T] (nr nz : Nat) (p : Nat × Nat) :
    Footprint (block p) (overlayAt (T := T) nr nz p) := by
  unfold overlayAt exchX exchY exchXY
  refine footprint_bind _ _ _ (footprint_ite _ _ _ _ ?_ (footprint_pure _))
    (footprint_bind _ _ _ (footprint_ite _ _ _ _ ?_ (footprint_pure _))
      (footprint_ite _ _ _ _ ?_ (footprint_pure _)))
  · exact footprint_pair _ _ _ _ _ ⟨Or.inl rfl, Or.inl rfl⟩ ⟨Or.inr rfl, Or.inl rfl⟩ _
  · exact footprint_pair _ _ _ _ _ ⟨Or.inl rfl, Or.inl rfl⟩ ⟨Or.inl rfl, Or.inr rfl⟩ _
  · exact footprint_pair _ _ _ _ _ ⟨Or.inl rfl, Or.inl rfl⟩ ⟨Or.inr rfl, Or.inr rfl⟩ _

/-- Two different visits of the same colour access disjoint sets of domains. -/
theorem C67_disjoint (nr nz : Nat) (c p q : Nat × Nat) (hp : p ∈ colour nr nz c)
    (hq : q ∈ colour nr nz c) (hne : p ≠ q) (a b : Nat) : ¬ (block p a b ∧ block q a b) := by
  rw [mem_colour] at hp hq
  obtain ⟨p1, p2⟩ := p
  obtain ⟨q1, q2⟩ := q
  unfold block
  dsimp only at *
  have : ¬ (p1 = q1 ∧ p2 = q2) := fun ⟨h1, h2⟩ => hne (by rw [h1, h2])
  omega

theorem commute_of_disjoint (S S' : Nat → Nat → Prop) (hd : ∀ a b, ¬ (S a b ∧ S' a b))
    (f g : Domains T → Res (Domains T)) (hf : Footprint S f) (hg : Footprint S' g)
    (D D' : Domains T) (h : (f D >>= g) = .ok D') : (g D >>= f) = .ok D' := by
  cases e : f D with
  | ok E =>
    rw [e, Res.ok_bind] at h
    have ag : AgreeOn S' E D := fun a b hab => hf.1 _ _ e a b (fun hs => hd a b ⟨hs, hab⟩)
    obtain ⟨F, hF, hFa⟩ := hg.2 _ _ _ ag h
    have ag' : AgreeOn S D F := fun a b hab => (hg.1 _ _ hF a b (fun hs => hd a b ⟨hab, hs⟩)).symm
    obtain ⟨H, hH, hHa⟩ := hf.2 _ _ _ ag' e
    rw [hF, Res.ok_bind, hH]
    congr 1
    funext a b
    by_cases c1 : S a b
    · rw [← hHa a b c1, hg.1 _ _ h a b (fun hs => hd a b ⟨c1, hs⟩)]
    · rw [hf.1 _ _ hH a b c1]
      by_cases c2 : S' a b
      · rw [← hFa a b c2]
      · rw [hg.1 _ _ hF a b c2, hg.1 _ _ h a b c2, hf.1 _ _ e a b c1]
  | fatal => rw [e] at h; exact nomatch h
  | ub => rw [e] at h; exact nomatch h

/-- Whatever order the visits of one colour are executed in, the result is the same. -/
theorem C67_order_irrelevant [Add T] (nr nz : Nat) (c : Nat × Nat) (l : List (Nat × Nat))
    (hl : (colour nr nz c).Perm l) (D D' : Domains T)
    (h : loop (overlayAt nr nz) (colour nr nz c) D = .ok D') :
    loop (overlayAt nr nz) l D = .ok D' := by
  have key : ∀ l₁ l₂ : List (Nat × Nat), l₁.Perm l₂ → (∀ p ∈ l₁, p ∈ colour nr nz c) → l₁.Nodup →
      ∀ D D' : Domains T, loop (overlayAt nr nz) l₁ D = .ok D' → loop (overlayAt nr nz) l₂ D = .ok D' := by
    intro l₁ l₂ hp
    induction hp with
    | nil => intro _ _ D D' h; exact h
    | cons x _ ih =>
      intro hm nd D D' h
      rw [loop_cons] at h ⊢
      cases e : overlayAt nr nz x D with
      | ok E =>
        rw [e, Res.ok_bind] at h
        rw [Res.ok_bind]
        exact ih (fun p hp => hm p (by simp [hp])) (List.nodup_cons.mp nd).2 _ _ h
      | fatal => rw [e] at h; exact nomatch h
      | ub => rw [e] at h; exact nomatch h
    | swap x y l =>
      intro hm nd D D' h
      rw [loop_cons] at h ⊢
      have hxy : y ≠ x := by
        rintro rfl
        exact (List.nodup_cons.mp nd).1 (by simp)
      have hdis := C67_disjoint nr nz c y x (hm y (by simp)) (hm x (by simp)) hxy
      cases e : overlayAt nr nz y D with
      | ok E =>
        rw [e, Res.ok_bind, loop_cons] at h
        cases e' : overlayAt nr nz x E with
        | ok F =>
          rw [e', Res.ok_bind] at h
          have h1 : (overlayAt nr nz y D >>= overlayAt nr nz x) = .ok F := by rw [e, Res.ok_bind, e']
          have h2 := commute_of_disjoint _ _ hdis _ _ (C67_footprint nr nz y) (C67_footprint nr nz x)
            D F h1
          cases e'' : overlayAt nr nz x D with
          | ok G =>
            rw [e'', Res.ok_bind] at h2
            rw [Res.ok_bind, loop_cons, h2, Res.ok_bind, h]
          | fatal => rw [e''] at h2; exact nomatch h2
          | ub => rw [e''] at h2; exact nomatch h2
        | fatal => rw [e'] at h; exact nomatch h
        | ub => rw [e'] at h; exact nomatch h
      | fatal => rw [e] at h; exact nomatch h
      | ub => rw [e] at h; exact nomatch h
    | trans h12 h23 ih1 ih2 =>
      intro hm nd D D' h
      exact ih2 (fun p hp => hm p (h12.mem_iff.mpr hp)) (h12.nodup_iff.mp nd) D D' (ih1 hm nd D D' h)
  exact key _ _ hl (fun p hp => hp) (nodup_colour nr nz c) D D' h

-- non-trivial instance: four visits of colour (0, 0) in a 4 × 4 arrangement, and the
-- pass over them succeeds
example : colour 4 4 (0, 0) = [(0, 0), (0, 2), (2, 0), (2, 2)] ∧
    (∃ D', loop (overlayAt 4 4) (colour 4 4 (0, 0)) (fun _ _ => (⟨1, 2, 2, fun _ _ => 1⟩ : Grid Nat))
      = .ok D') := ⟨by decide, _, rfl⟩

/-- The particle hand-over does not have the property: visits `(0,0)` and `(2,0)` belong
to the same colour, and in one and the same state both append to the particle list
of domain `(1,0)`.  (They also both increment the shared counters `j_c`, `r_c`.) -/
theorem C11_handover_race :
    let D : Doms := fun i j =>
      [⟨7, if (i = 0 ∨ i = 2) ∧ j = 0 then [⟨3, 0, i⟩] else []⟩]
    ((0, 0) ∈ colour exEven.domR exEven.domZ (0, 0) ∧
     (2, 0) ∈ colour exEven.domR exEven.domZ (0, 0)) ∧
    (collectDom exEven (0, 0) D >>= fun D' => .ok (D' 1 0)) = Res.ok [⟨7, [⟨3, 0, 0⟩]⟩] ∧
    (collectDom exEven (2, 0) D >>= fun D' => .ok (D' 1 0)) = Res.ok [⟨7, [⟨3, 0, 2⟩]⟩] ∧
    D 1 0 = [⟨7, []⟩] := by
  decide

end SMB
end Pico
