import Verif.Spec.Added
import Verif.Props.Grid

/-! Composition of contributions. -/

namespace Pico
namespace Grid

variable {T : Type _}

theorem SameShape.inside {g h : Grid T} (s : SameShape g h) (x y : Int) :
    h.Inside x y ↔ g.Inside x y := by
  unfold Inside; rw [s.1, s.2.1, s.2.2]

theorem SameShape.wf {g h : Grid T} (s : SameShape g h) (wf : g.WF) : h.WF := by
  unfold WF xr yr at *; rw [s.1, s.2.1, s.2.2]; exact wf

theorem SameShape.trans {g h k : Grid T} (s : SameShape g h) (t : SameShape h k) : SameShape g k :=
  ⟨t.1.trans s.1, t.2.1.trans s.2.1, t.2.2.trans s.2.2⟩

theorem inside_isInt {g : Grid T} (wf : g.WF) {x y : Int} (h : g.Inside x y) : IsInt x ∧ IsInt y := by
  obtain ⟨w1, w2⟩ := wf
  obtain ⟨⟨h1, h2⟩, h3, h4⟩ := h
  unfold xr at w1
  unfold yr at w2
  unfold IsInt
  omega

theorem Added.refl [AddMonoid T] (g : Grid T) : Added g g (fun _ _ => 0) :=
  ⟨⟨rfl, rfl, rfl⟩, fun x y a _ h => by rw [h, add_zero]⟩

theorem Added.trans [AddMonoid T] {g h k : Grid T} {δ ε : Int → Int → T} (a : Added g h δ)
    (b : Added h k ε) : Added g k (fun x y => δ x y + ε x y) := by
  refine ⟨a.1.trans b.1, ?_⟩
  intro x y v hin hv
  rw [b.2 x y _ ((a.1.inside x y).mpr hin) (a.2 x y v hin hv), add_assoc]

theorem Added.congr [Add T] {g h : Grid T} {δ ε : Int → Int → T} (a : Added g h δ)
    (e : ∀ x y, g.Inside x y → δ x y = ε x y) : Added g h ε :=
  ⟨a.1, fun x y v hin hv => by rw [a.2 x y v hin hv, e x y hin]⟩

theorem inc_added [AddMonoid T] (g : Grid T) (wf : g.WF) {x y : Int} (h : g.Inside x y) (v : T) :
    ∃ g', g.inc x y v = .ok g' ∧ Added g g' (single x y v) := by
  obtain ⟨old, ho⟩ := (C01_access_defined g wf x y (inside_isInt wf h).1 (inside_isInt wf h).2).1 h
  have : ∃ g', g.inc x y v = .ok g' ∧ ChangedAt g g' x y (old + v) := upd_changedAt g wf h (· + v) ho
  obtain ⟨g', e, sh, hv, hf⟩ := this
  refine ⟨g', e, sh, ?_⟩
  intro a b w hin hw
  unfold single
  by_cases hab : a = x ∧ b = y
  · obtain ⟨rfl, rfl⟩ := hab
    rw [if_pos ⟨rfl, rfl⟩, hv]
    rw [ho] at hw
    injection hw with hw
    rw [hw]
  · rw [if_neg hab, add_zero, hf a b (inside_isInt wf hin).1 (inside_isInt wf hin).2 hab, hw]

end Grid
end Pico
