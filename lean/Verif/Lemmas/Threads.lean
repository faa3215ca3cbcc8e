import Verif.Model.Threads
import Verif.Props.Sweeps
import Verif.Lemmas.FieldStep
import Verif.Lemmas.Dump

/-! Interleavings of independent visits. -/

set_option linter.unusedSimpArgs false
set_option linter.unusedVariables false
set_option linter.unusedSectionVars false

namespace Pico
namespace Threads

open SMB Yee

section
variable {σ : Type}

theorem seq_nil (s : σ) : seq [] s = .ok s := rfl
theorem seq_cons (f : σ → Res σ) (l : List (σ → Res σ)) (s : σ) : seq (f :: l) s = (f s >>= seq l) := rfl
theorem seq_append (a b : List (σ → Res σ)) (s : σ) : seq (a ++ b) s = (seq a s >>= seq b) := loop_append ..

theorem bind_iff {α β : Type} {x : Res α} {f : α → Res β} {b : β} : (x >>= f) = .ok b ↔ ∃ a, x = .ok a ∧ f a = .ok b := by
  cases x with
  | ok a => simp
  | fatal => simp
  | ub => simp

/-- The actions can change places. -/
def Comm (f g : σ → Res σ) : Prop := ∀ s s', (f s >>= g) = .ok s' ↔ (g s >>= f) = .ok s'

theorem Comm.symm {f g : σ → Res σ} (h : Comm f g) : Comm g f := fun s s' => (h s s').symm

theorem move_back (x : σ → Res σ) (A : List (σ → Res σ)) (h : ∀ y ∈ A, Comm x y) : ∀ s s', seq (x :: A) s = .ok s' ↔ seq (A ++ [x]) s = .ok s' := by
  induction A with
  | nil => intro s s'; rfl
  | cons y A ih =>
    intro s s'
    have ih := ih fun z hz => h z (List.mem_cons_of_mem _ hz)
    have e1 : seq (x :: y :: A) s = ((x s >>= y) >>= seq A) := by
      rw [seq_cons]
      cases x s <;> rfl
    have e2 : seq (y :: x :: A) s = ((y s >>= x) >>= seq A) := by
      rw [seq_cons]
      cases y s <;> rfl
    have c := h y (List.mem_cons_self ..)
    calc seq (x :: y :: A) s = .ok s' ↔ ∃ t, (x s >>= y) = .ok t ∧ seq A t = .ok s' := by rw [e1, bind_iff]
      _ ↔ ∃ t, (y s >>= x) = .ok t ∧ seq A t = .ok s' := by simp only [c s]
      _ ↔ seq (y :: x :: A) s = .ok s' := by rw [e2, bind_iff]
      _ ↔ ∃ t, y s = .ok t ∧ seq (x :: A) t = .ok s' := by rw [seq_cons, bind_iff]
      _ ↔ ∃ t, y s = .ok t ∧ seq (A ++ [x]) t = .ok s' := by simp only [ih]
      _ ↔ _ := by rw [List.cons_append, seq_cons, bind_iff]

/-- Visits whose actions can change places: every order gives the same. -/
theorem interleaved_seq {ts : List (List (σ → Res σ))} {o : List (σ → Res σ)} (h : Interleaved ts o) :
    ts.Pairwise (fun t t' => ∀ x ∈ t, ∀ y ∈ t', Comm x y) → ∀ s s', seq o s = .ok s' ↔ seq ts.flatten s = .ok s' := by
  induction h with
  | done h =>
    intro _ s s'
    rw [List.flatten_eq_nil_iff.2 fun t ht => h t ht]
  | @step a b x t o h ih =>
    intro hp s s'
    have hp' : (a ++ t :: b).Pairwise (fun t t' => ∀ x ∈ t, ∀ y ∈ t', Comm x y) := by
      rw [List.pairwise_append] at hp ⊢
      obtain ⟨h1, h2, h3⟩ := hp
      refine ⟨h1, ?_, ?_⟩
      · rw [List.pairwise_cons] at h2 ⊢
        exact ⟨fun t' ht' y hy z hz => h2.1 t' ht' y (List.mem_cons_of_mem _ hy) z hz, h2.2⟩
      · intro t1 ht1 t2 ht2 y hy z hz
        rcases List.mem_cons.1 ht2 with rfl | ht2
        · exact h3 t1 ht1 _ (List.mem_cons_self ..) y hy z (List.mem_cons_of_mem _ hz)
        · exact h3 t1 ht1 t2 (List.mem_cons_of_mem _ ht2) y hy z hz
    have ih := ih hp'
    have cx : ∀ y ∈ a.flatten, Comm x y := by
      intro y hy
      obtain ⟨t1, ht1, hy⟩ := List.mem_flatten.1 hy
      exact ((List.pairwise_append.1 hp).2.2 t1 ht1 _ (List.mem_cons_self ..) y hy x (List.mem_cons_self ..)).symm
    have e1 : (a ++ t :: b).flatten = a.flatten ++ (t ++ b.flatten) := by simp
    have e2 : (a ++ (x :: t) :: b).flatten = (a.flatten ++ [x]) ++ (t ++ b.flatten) := by simp
    rw [seq_cons, bind_iff, e2, seq_append, bind_iff]
    rw [e1] at ih
    simp only [ih]
    rw [← bind_iff, ← seq_cons, ← List.cons_append, seq_append, bind_iff]
    simp only [move_back x a.flatten cx]

theorem interleaved_nil {α : Type} {ts : List (List α)} {o : List α} (h : Interleaved ts o) : Interleaved ([] :: ts) o := by
  induction h with
  | done h =>
    refine .done fun t ht => ?_
    rcases List.mem_cons.1 ht with rfl | ht
    · rfl
    · exact h t ht
  | @step a b x t o h ih => exact Interleaved.step (a := [] :: a) ih

/-- The visits one after another. -/
theorem interleaved_flatten {α : Type} (ts : List (List α)) : Interleaved ts ts.flatten := by
  induction ts with
  | nil => exact .done (by simp)
  | cons t ts ih =>
    rw [List.flatten_cons]
    induction t with
    | nil => exact interleaved_nil ih
    | cons x t iht => exact Interleaved.step (a := []) iht

/-- A list is an interleaving of its parts with different tags. -/
theorem interleaved_tags {α τ : Type} [DecidableEq τ] (cs : List τ) (nd : cs.Nodup) (o : List (τ × α)) (h : ∀ x ∈ o, x.1 ∈ cs) :
    Interleaved (cs.map fun c => o.filter fun x => x.1 = c) o := by
  induction o with
  | nil => exact .done (by simp)
  | cons x o ih =>
    obtain ⟨a, b, rfl⟩ := List.append_of_mem (h x (List.mem_cons_self ..))
    have ih := ih fun y hy => h y (List.mem_cons_of_mem _ hy)
    have na : x.1 ∉ a := fun hm => (List.nodup_append.1 nd).2.2 x.1 hm x.1 (List.mem_cons_self ..) rfl
    have nb : x.1 ∉ b := (List.nodup_cons.1 (List.nodup_append.1 nd).2.1).1
    have skip : ∀ l : List τ, x.1 ∉ l → (l.map fun c => (x :: o).filter fun y => y.1 = c) = l.map fun c => o.filter fun y => y.1 = c := by
      intro l hl
      refine List.map_congr_left fun c hc => ?_
      rw [List.filter_cons_of_neg]
      simp only [decide_eq_true_eq]
      rintro rfl
      exact hl hc
    rw [List.map_append, List.map_cons, skip a na, skip b nb, List.filter_cons_of_pos (by simp)]
    rw [List.map_append, List.map_cons] at ih
    exact Interleaved.step ih

theorem interleaved_map {α β : Type} (f : α → β) {ts : List (List α)} {o : List α} (h : Interleaved ts o) : Interleaved (ts.map (List.map f)) (o.map f) := by
  induction h with
  | done h =>
    refine .done fun t ht => ?_
    obtain ⟨t', ht', rfl⟩ := List.mem_map.1 ht
    rw [h t' ht', List.map_nil]
  | @step a b x t o h ih =>
    rw [List.map_append, List.map_cons, List.map_cons, List.map_cons]
    rw [List.map_append, List.map_cons] at ih
    exact Interleaved.step ih

theorem interleaved_one {α : Type} {t o : List α} (h : Interleaved [t] o) : o = t := by
  generalize e : [t] = ts at h
  induction h generalizing t with
  | done h =>
    subst e
    exact (h t (List.mem_cons_self ..)).symm
  | @step a b x t' o h ih =>
    cases a with
    | nil =>
      rw [List.nil_append, List.cons.injEq] at e
      obtain ⟨rfl, rfl⟩ := e
      rw [ih rfl]
    | cons c a =>
      rw [List.cons_append, List.cons.injEq] at e
      simp at e

theorem interleaved_zero {α : Type} {o : List α} (h : Interleaved [] o) : o = [] := by
  generalize e : ([] : List (List α)) = ts at h
  cases h with
  | done h => rfl
  | step h => simp at e
end

section
variable {L V : Type}

theorem only_comm {S S' : L → Prop} (hd : ∀ l, ¬ (S l ∧ S' l)) {f g : (L → V) → Res (L → V)} (hf : Only S f) (hg : Only S' g) : Comm f g := by
  have key : ∀ {S S' : L → Prop} (_ : ∀ l, ¬ (S l ∧ S' l)) {f g : (L → V) → Res (L → V)} (_ : Only S f) (_ : Only S' g) (s s' : L → V),
      (f s >>= g) = .ok s' → (g s >>= f) = .ok s' := by
    intro S S' hd f g hf hg s s' h
    obtain ⟨e, e1, h⟩ := bind_iff.1 h
    have ag : ∀ l, S' l → e l = s l := fun l hl => hf.1 _ _ e1 l fun hs => hd l ⟨hs, hl⟩
    obtain ⟨F, hF, hFa⟩ := hg.2 _ _ _ ag h
    have ag' : ∀ l, S l → s l = F l := fun l hl => (hg.1 _ _ hF l fun hs => hd l ⟨hl, hs⟩).symm
    obtain ⟨H, hH, hHa⟩ := hf.2 _ _ _ ag' e1
    rw [hF, Res.ok_bind, hH]
    congr 1
    funext l
    by_cases c1 : S l
    · rw [← hHa l c1, hg.1 _ _ h l fun hs => hd l ⟨c1, hs⟩]
    · rw [hf.1 _ _ hH l c1]
      by_cases c2 : S' l
      · rw [← hFa l c2]
      · rw [hg.1 _ _ hF l c2, hg.1 _ _ h l c2, hf.1 _ _ e1 l c1]
  exact fun s s' => ⟨key hd hf hg s s', key (fun l hl => hd l ⟨hl.2, hl.1⟩) hg hf s s'⟩

theorem only_pure (S : L → Prop) : Only (V := V) S fun s => .ok s :=
  ⟨fun _ _ h _ _ => by rw [Res.ok.inj h], fun _ t _ h e => ⟨t, rfl, by rw [← Res.ok.inj e]; exact h⟩⟩

theorem only_bind {S : L → Prop} {f g : (L → V) → Res (L → V)} (hf : Only S f) (hg : Only S g) : Only S fun s => f s >>= g := by
  constructor
  · intro s s' h l hl
    obtain ⟨e, e1, h⟩ := bind_iff.1 h
    rw [hg.1 _ _ h l hl, hf.1 _ _ e1 l hl]
  · intro s t s' ag h
    obtain ⟨e, e1, h⟩ := bind_iff.1 h
    obtain ⟨e', e1', a1⟩ := hf.2 _ _ _ ag e1
    obtain ⟨e'', e2, a2⟩ := hg.2 _ _ _ a1 h
    exact ⟨e'', bind_iff.2 ⟨e', e1', e2⟩, a2⟩

theorem only_loop {ι : Type} {S : L → Prop} {body : ι → (L → V) → Res (L → V)} (l : List ι) (h : ∀ x ∈ l, Only S (body x)) : Only S (loop body l) := by
  induction l with
  | nil => exact only_pure S
  | cons x l ih => exact only_bind (h x (List.mem_cons_self ..)) (ih fun y hy => h y (List.mem_cons_of_mem _ hy))

theorem only_mono {S S' : L → Prop} (hs : ∀ l, S l → S' l) {f : (L → V) → Res (L → V)} (hf : Only S f) : Only S' f := by
  refine ⟨fun s s' h l hl => hf.1 s s' h l fun c => hl (hs l c), fun s t s' ag h => ?_⟩
  obtain ⟨t', e, a⟩ := hf.2 s t s' (fun l hl => ag l (hs l hl)) h
  refine ⟨t', e, fun l hl => ?_⟩
  by_cases c : S l
  · exact a l c
  · rw [hf.1 s s' h l c, hf.1 t t' e l c, ag l hl]

/-- `R` describes an execution that always gives what `f` gives. -/
def Follows {σ τ : Type} (R : σ → Res τ → Prop) (f : σ → Res τ) : Prop :=
  ∀ s, (∀ t, f s = .ok t → ∀ r, R s r ↔ r = .ok t) ∧ ∀ t, R s (.ok t) → f s = .ok t

theorem Follows.then {σ τ υ : Type} {R : σ → Res τ → Prop} {f : σ → Res τ} {Q : τ → Res υ → Prop} {g : τ → Res υ} (hR : Follows R f)
    (hQ : Follows Q g) : Follows (Then R Q) fun s => f s >>= g := by
  intro s
  constructor
  · intro u e r
    obtain ⟨t, e1, e2⟩ := bind_iff.1 e
    have h1 := (hR s).1 t e1
    have h2 := (hQ t).1 u e2
    constructor
    · rintro (⟨t', a, b⟩ | ⟨a, _⟩ | ⟨a, _⟩)
      · obtain rfl := Res.ok.inj ((h1 _).1 a)
        exact (h2 r).1 b
      · exact nomatch (h1 _).1 a
      · exact nomatch (h1 _).1 a
    · intro e
      exact Or.inl ⟨t, (h1 _).2 rfl, (h2 r).2 e⟩
  · rintro u (⟨t, a, b⟩ | ⟨_, a⟩ | ⟨_, a⟩)
    · exact bind_iff.2 ⟨t, (hR s).2 t a, (hQ t).2 u b⟩
    · exact nomatch a
    · exact nomatch a

theorem seq_map {ι σ : Type} (body : ι → σ → Res σ) (l : List ι) (s : σ) : seq (l.map body) s = loop body l s := by
  induction l generalizing s with
  | nil => rfl
  | cons x l ih =>
    rw [List.map_cons, seq_cons, loop_cons]
    cases body x s <;> simp [ih]

theorem seq_flatten {ι σ : Type} (acts : ι → List (σ → Res σ)) (body : ι → σ → Res σ) (l : List ι) (h : ∀ p ∈ l, ∀ s, seq (acts p) s = body p s)
    (s : σ) : seq (l.map acts).flatten s = loop body l s := by
  induction l generalizing s with
  | nil => rfl
  | cons x l ih =>
    rw [List.map_cons, List.flatten_cons, seq_append, loop_cons, h x (List.mem_cons_self ..)]
    cases body x s <;> simp [ih fun p hp => h p (List.mem_cons_of_mem _ hp)]

/-- A parallel loop over visits that access different memory gives what the sequential loop gives. -/
theorem parfor {ι : Type} {S : ι → L → Prop} {body : ι → (L → V) → Res (L → V)} {l : List ι} (hb : ∀ p ∈ l, Only (S p) (body p))
    (hd : l.Pairwise fun p q => ∀ x, ¬ (S p x ∧ S q x)) : Follows (ParFor S body l) (loop body l) := by
  have key : ∀ s r s', ParFor S body l s r → (r = .ok s' ↔ loop body l s = .ok s') := by
    rintro s r s' ⟨acts, h1, o, h2, h3⟩
    have hp : (l.map acts).Pairwise fun t t' => ∀ x ∈ t, ∀ y ∈ t', Comm x y := by
      rw [List.pairwise_map]
      refine List.Pairwise.imp_of_mem (fun {p q} hp hq h x hx y hy => ?_) hd
      exact only_comm h ((h1 p hp).1 x hx) ((h1 q hq).1 y hy)
    rw [← h3, interleaved_seq h2 hp s s', seq_flatten acts body l fun p hp => (h1 p hp).2]
  intro s
  constructor
  · intro t e r
    constructor
    · exact fun h => (key s r t h).2 e
    · rintro rfl
      refine ⟨fun p => [body p], fun p hp => ⟨fun a ha => ?_, fun s => ?_⟩, _, interleaved_flatten _, ?_⟩
      · rw [List.mem_singleton.1 ha]
        exact hb p hp
      · rw [seq_cons]
        cases body p s <;> rfl
      · rw [seq_flatten _ body]
        · exact e
        · intro p _ s
          rw [seq_cons]
          cases body p s <;> rfl
  · exact fun t h => (key s _ t h).1 rfl

end

theorem Follows.map {σ σ' τ τ' : Type} {R : σ' → Res τ' → Prop} {f : σ' → Res τ'} (h : Follows R f) (i : σ → σ') (k : σ → τ' → τ) :
    Follows (fun s r => ∃ x, R (i s) x ∧ r = (x >>= fun t => .ok (k s t))) fun s => f (i s) >>= fun t => .ok (k s t) := by
  intro s
  constructor
  · intro t e r
    obtain ⟨t', e1, e2⟩ := bind_iff.1 e
    have h1 := (h (i s)).1 t' e1
    constructor
    · rintro ⟨x, a, rfl⟩
      rw [(h1 x).1 a, Res.ok_bind, e2]
    · rintro rfl
      exact ⟨.ok t', (h1 _).2 rfl, by rw [Res.ok_bind, e2]⟩
  · rintro t ⟨x, a, e⟩
    obtain ⟨t', e1, e2⟩ := bind_iff.1 e.symm
    subst e1
    show (f (i s) >>= fun t => .ok (k s t)) = .ok t
    rw [(h (i s)).2 t' a, Res.ok_bind, e2]

theorem Follows.congr {σ τ : Type} {R : σ → Res τ → Prop} {f g : σ → Res τ} (h : Follows R f) (e : ∀ s t, f s = .ok t ↔ g s = .ok t) : Follows R g :=
  fun s => ⟨fun t k => (h s).1 t ((e s t).2 k), fun t k => (e s t).1 ((h s).2 t k)⟩

section
variable {K : Type}

theorem follows_each (domR domZ : Nat) (f : Nat → Nat → Mem K → Res (Mem K)) : Follows (Each domR domZ f) (each domR domZ f) := by
  have base := parfor (L := Nat × Nat) (V := Mem K) (S := fun (q : Nat × Nat) l => l = q)
    (body := fun q s => f q.1 q.2 (s q) >>= fun m => .ok (fun l => if l = q then m else s l)) (l := idx2 0 domR 0 domZ) ?_ ?_
  · refine ((base.map (fun (M : Solvers K) (q : Nat × Nat) => M q.1 q.2) fun _ s i j => s (i, j))).congr fun M M' => ?_
    have key : ∀ (l : List (Nat × Nat)) (M : Solvers K),
        (loop (fun (q : Nat × Nat) s => f q.1 q.2 (s q) >>= fun m => .ok (fun l => if l = q then m else s l)) l (fun q => M q.1 q.2) >>=
          fun s => .ok (fun i j => s (i, j))) =
        loop (fun q M => f q.1 q.2 (M q.1 q.2) >>= fun m => .ok (fun i j => if i = q.1 ∧ j = q.2 then m else M i j)) l M := by
      intro l
      induction l with
      | nil => intro M; rfl
      | cons q l ih =>
        intro M
        rw [loop_cons, loop_cons]
        cases e : f q.1 q.2 (M q.1 q.2) with
        | ok m =>
          rw [Res.ok_bind, Res.ok_bind]
          show _ = loop _ l (fun i j => if i = q.1 ∧ j = q.2 then m else M i j)
          rw [← ih]
          congr 2
          funext x
          have : (x = q) ↔ (x.1 = q.1 ∧ x.2 = q.2) := Prod.ext_iff
          simp only [this]
        | fatal => rfl
        | ub => rfl
    rw [key]
    rfl
  · intro p _
    constructor
    · intro s s' h l hl
      obtain ⟨m, _, h⟩ := bind_iff.1 h
      rw [← Res.ok.inj h]
      dsimp only
      rw [if_neg hl]
    · intro s t s' ag h
      obtain ⟨m, e, h⟩ := bind_iff.1 h
      refine ⟨fun l => if l = p then m else t l, ?_, ?_⟩
      · dsimp only
        rw [← ag p rfl, e]
        rfl
      · intro l hl
        rw [← Res.ok.inj h]
        dsimp only
        rw [if_pos hl, if_pos hl]
  · refine List.Pairwise.imp (fun {a b} h x hx => h (hx.1.symm.trans hx.2)) (nodup_idx2 ..)

/-! ### Exchanges -/

theorem only_comp [Add K] (domR domZ : Nat) (p : Nat × Nat) (x : Dir × Comp) :
    Only (fun l => near p l ∧ l.2.2 = x.2) (exchComp (K := K) domR domZ p x) := by
  have fp : Footprint (block p) (exch (K := K) domR domZ x.1 p) := by
    unfold exch exchX exchY exchXY
    cases x.1
    · exact footprint_ite _ _ _ _ (footprint_pair _ _ _ _ _ ⟨Or.inl rfl, Or.inl rfl⟩ ⟨Or.inr rfl, Or.inl rfl⟩ _) (footprint_pure _)
    · exact footprint_ite _ _ _ _ (footprint_pair _ _ _ _ _ ⟨Or.inl rfl, Or.inl rfl⟩ ⟨Or.inl rfl, Or.inr rfl⟩ _) (footprint_pure _)
    · exact footprint_ite _ _ _ _ (footprint_pair _ _ _ _ _ ⟨Or.inl rfl, Or.inl rfl⟩ ⟨Or.inr rfl, Or.inr rfl⟩ _) (footprint_pure _)
  constructor
  · intro s s' h l hl
    obtain ⟨D, e, h⟩ := bind_iff.1 h
    rw [← Res.ok.inj h]
    dsimp only
    by_cases c : l.2.2 = x.2
    · rw [if_pos c, fp.1 _ _ e _ _ fun hb => hl ⟨hb, c⟩, ← c]
    · rw [if_neg c]
  · intro s t s' ag h
    obtain ⟨D, e, h⟩ := bind_iff.1 h
    obtain ⟨D', e', a'⟩ := fp.2 _ (fun i j => t (i, j, x.2)) _ (fun a b hab => ag (a, b, x.2) ⟨hab, rfl⟩) e
    refine ⟨_, bind_iff.2 ⟨D', e', rfl⟩, fun l hl => ?_⟩
    rw [← Res.ok.inj h]
    dsimp only
    rw [if_pos hl.2, if_pos hl.2]
    exact a' _ _ hl.1

theorem only_visit [Add K] (domR domZ : Nat) (cs : List Comp) (p : Nat × Nat) : Only (near p) (visit (K := K) domR domZ cs p) :=
  only_loop _ fun x _ => only_mono (fun _ h => h.1) (only_comp domR domZ p x)

theorem follows_sweeps [Add K] (domR domZ : Nat) (cs : List Comp) (l : List (Nat × Nat)) :
    Follows (Sweeps (K := K) domR domZ cs l) (loop (visit domR domZ cs) (l.flatMap (colour domR domZ))) := by
  induction l with
  | nil =>
    intro G
    refine ⟨fun t e r => ?_, fun t e => e.symm⟩
    rw [← e]
    exact Iff.rfl
  | cons c l ih =>
    have base : Follows (ParFor near (visit (K := K) domR domZ cs) (colour domR domZ c)) (loop (visit domR domZ cs) (colour domR domZ c)) := by
      refine parfor (fun p _ => only_visit domR domZ cs p) ?_
      refine List.Pairwise.imp_of_mem (fun {p q} hp hq h x hx => ?_) (nodup_colour domR domZ c)
      exact C67_disjoint domR domZ c p q hp hq h x.1 x.2.1 hx
    refine (base.then ih).congr fun G G' => ?_
    rw [List.flatMap_cons, loop_append]

/-- All exchanges of one component. -/
def passComp [Add K] (domR domZ : Nat) (c : Comp) (G : Grids K) : Res (Grids K) :=
  overlayPass domR domZ (fun i j => G (i, j, c)) >>= fun D => .ok fun l => if l.2.2 = c then D l.1 l.2.1 else G l

/-- The visits with their directions, in order. -/
def moves (l : List (Nat × Nat)) : List ((Nat × Nat) × Dir) := l.flatMap fun p => [Dir.x, .y, .xy].map fun d => (p, d)

/-- An operation on the grids of one component. -/
def lift (c : Comp) (f : Domains K → Res (Domains K)) (G : Grids K) : Res (Grids K) :=
  f (fun i j => G (i, j, c)) >>= fun D => .ok fun l => if l.2.2 = c then D l.1 l.2.1 else G l

theorem lift_bind (c : Comp) (f g : Domains K → Res (Domains K)) (G : Grids K) : (lift c f G >>= lift c g) = lift c (fun D => f D >>= g) G := by
  unfold lift
  dsimp only
  cases f (fun i j => G (i, j, c)) with
  | fatal => rfl
  | ub => rfl
  | ok D =>
    simp only [Res.ok_bind, if_true]
    show (g D >>= _) = (g D >>= _)
    cases g D with
    | fatal => rfl
    | ub => rfl
    | ok D' =>
      simp only [Res.ok_bind]
      congr 1
      funext l
      by_cases h : l.2.2 = c
      · rw [if_pos h, if_pos h]
      · rw [if_neg h, if_neg h, if_neg h]

theorem lift_pure (c : Comp) (G : Grids K) : lift c (fun D => .ok D) G = .ok G := by
  unfold lift
  rw [Res.ok_bind]
  congr 1
  funext l
  dsimp only
  split
  · next h => rw [← h]
  · rfl

theorem lift_seq (c : Comp) (fs : List (Domains K → Res (Domains K))) (G : Grids K) : seq (fs.map (lift c)) G = lift c (seq fs) G := by
  induction fs generalizing G with
  | nil => exact (lift_pure c G).symm
  | cons f fs ih =>
    have : seq (f :: fs) = fun D => f D >>= seq fs := rfl
    rw [List.map_cons, seq_cons, this, ← lift_bind]
    cases lift c f G <;> simp [ih]

theorem moves_pass [Add K] (domR domZ : Nat) (c : Comp) (l : List (Nat × Nat)) (G : Grids K) :
    seq ((moves l).map fun y => exchComp domR domZ y.1 (y.2, c)) G = lift c (loop (overlayAt domR domZ) l) G := by
  have e : ((moves l).map fun y => exchComp (K := K) domR domZ y.1 (y.2, c)) = ((moves l).map fun y => exch domR domZ y.2 y.1).map (lift c) := by
    rw [List.map_map]
    rfl
  rw [e, lift_seq]
  congr 1
  funext D
  induction l generalizing D with
  | nil => rfl
  | cons p l ih =>
    have e : moves (p :: l) = [(p, Dir.x), (p, .y), (p, .xy)] ++ moves l := rfl
    rw [e, List.map_append, seq_append, loop_cons]
    have v : seq (([(p, Dir.x), (p, .y), (p, .xy)] : List ((Nat × Nat) × Dir)).map fun y => exch (K := K) domR domZ y.2 y.1) D =
        overlayAt domR domZ p D := by
      show (exchX domR p.1 p.2 D >>= fun D => exchY domZ p.1 p.2 D >>= fun D => exchXY domR domZ p.1 p.2 D >>= fun D => .ok D) =
        (exchX domR p.1 p.2 D >>= fun D => exchY domZ p.1 p.2 D >>= fun D => exchXY domR domZ p.1 p.2 D)
      cases exchX domR p.1 p.2 D with
      | fatal => rfl
      | ub => rfl
      | ok D =>
        simp only [Res.ok_bind]
        cases exchY domZ p.1 p.2 D with
        | fatal => rfl
        | ub => rfl
        | ok D =>
          simp only [Res.ok_bind]
          cases exchXY domR domZ p.1 p.2 D <;> rfl
    rw [v]
    cases overlayAt domR domZ p D with
    | fatal => rfl
    | ub => rfl
    | ok D' =>
      rw [Res.ok_bind, Res.ok_bind]
      refine ih ?_ D'
      rw [List.map_map]
      rfl

theorem visits_seq [Add K] (domR domZ : Nat) (cs : List Comp) (l : List (Nat × Nat)) (G : Grids K) :
    loop (visit domR domZ cs) l G = seq (((moves l).flatMap fun y => cs.map fun c => (c, y)).map fun z => exchComp domR domZ z.2.1 (z.2.2, z.1)) G := by
  induction l generalizing G with
  | nil => rfl
  | cons p l ih =>
    have e : moves (p :: l) = [(p, Dir.x), (p, .y), (p, .xy)] ++ moves l := rfl
    rw [loop_cons, e, List.flatMap_append, List.map_append, seq_append]
    have v : visit domR domZ cs p G = seq ((([(p, Dir.x), (p, .y), (p, .xy)] : List ((Nat × Nat) × Dir)).flatMap fun y => cs.map fun c => (c, y)).map
        fun z => exchComp domR domZ z.2.1 (z.2.2, z.1)) G := by
      unfold visit
      rw [← seq_map]
      congr 1
      simp [List.flatMap_cons, List.map_append, List.map_map, Function.comp_def]
    rw [v]
    congr 1
    funext G'
    exact ih G'

theorem filter_tags {α τ : Type} [DecidableEq τ] (cs : List τ) (nd : cs.Nodup) {c : τ} (hc : c ∈ cs) (l : List α) :
    (l.flatMap fun y => cs.map fun c => (c, y)).filter (fun x => x.1 = c) = l.map fun y => (c, y) := by
  induction l with
  | nil => rfl
  | cons y l ih =>
    rw [List.flatMap_cons, List.filter_append, ih, List.map_cons]
    have : (cs.map fun c => (c, y)).filter (fun x => decide (x.1 = c)) = [(c, y)] := by
      obtain ⟨a, b, rfl⟩ := List.append_of_mem hc
      have na : c ∉ a := fun hm => (List.nodup_append.1 nd).2.2 c hm c (List.mem_cons_self ..) rfl
      have nb : c ∉ b := (List.nodup_cons.1 (List.nodup_append.1 nd).2.1).1
      have no : ∀ l : List τ, c ∉ l → (l.map fun c => (c, y)).filter (fun x => decide (x.1 = c)) = [] := by
        intro l hl
        rw [List.filter_eq_nil_iff]
        intro x hx
        obtain ⟨c', hc', rfl⟩ := List.mem_map.1 hx
        simp only [decide_eq_true_eq]
        rintro rfl
        exact hl hc'
      rw [List.map_append, List.filter_append, List.map_cons, no a na, List.filter_cons_of_pos (by simp), no b nb, List.nil_append]
    rw [this]
    rfl

/-- Components can be exchanged one after another. -/
theorem visits_comps [Add K] (domR domZ : Nat) (cs : List Comp) (nd : cs.Nodup) (G G' : Grids K) :
    loop (visit domR domZ cs) (sweep domR domZ) G = .ok G' ↔ loop (passComp domR domZ) cs G = .ok G' := by
  rw [visits_seq]
  have il := interleaved_map (fun z : Comp × (Nat × Nat) × Dir => exchComp (K := K) domR domZ z.2.1 (z.2.2, z.1))
    (interleaved_tags cs nd ((moves (sweep domR domZ)).flatMap fun y => cs.map fun c => (c, y)) (by
      intro x hx
      obtain ⟨y, _, hx⟩ := List.mem_flatMap.1 hx
      obtain ⟨c, hc, rfl⟩ := List.mem_map.1 hx
      exact hc))
  rw [List.map_map] at il
  have e : (cs.map ((List.map fun z : Comp × (Nat × Nat) × Dir => exchComp (K := K) domR domZ z.2.1 (z.2.2, z.1)) ∘ fun c =>
      ((moves (sweep domR domZ)).flatMap fun y => cs.map fun c => (c, y)).filter fun x => x.1 = c)) =
      cs.map fun c => (moves (sweep domR domZ)).map fun y => exchComp (K := K) domR domZ y.1 (y.2, c) := by
    refine List.map_congr_left fun c hc => ?_
    rw [Function.comp_apply, filter_tags cs nd hc, List.map_map]
    rfl
  rw [e] at il
  rw [interleaved_seq il, seq_flatten _ (passComp domR domZ)]
  · intro c _ G
    exact moves_pass domR domZ c _ G
  · rw [List.pairwise_map]
    refine List.Pairwise.imp (fun {c c'} h x hx y hy => ?_) nd
    obtain ⟨z, _, rfl⟩ := List.mem_map.1 hx
    obtain ⟨w, _, rfl⟩ := List.mem_map.1 hy
    exact only_comm (fun l hl => h (hl.1.2.symm.trans hl.2.2)) (only_comp domR domZ z.1 (z.2, c)) (only_comp domR domZ w.1 (w.2, c'))

theorem passes_keep [Add K] {domR domZ : Nat} {cs : List Comp} {G G' : Grids K} (h : loop (passComp domR domZ) cs G = .ok G') {l : Nat × Nat × Comp}
    (hl : l.2.2 ∉ cs) : G' l = G l := by
  induction cs generalizing G with
  | nil => rw [Res.ok.inj h]
  | cons c cs ih =>
    rw [loop_cons] at h
    obtain ⟨G1, e1, h⟩ := bind_iff.1 h
    obtain ⟨D, _, e1⟩ := bind_iff.1 e1
    rw [ih h fun c => hl (List.mem_cons_of_mem _ c), ← Res.ok.inj e1]
    dsimp only
    rw [if_neg fun c => hl (by rw [c]; exact List.mem_cons_self ..)]

theorem passes_comp [Add K] (P : Nat → Nat → Par K) (domR domZ : Nat) (cs : List Comp) (nd : cs.Nodup) (M : Solvers K) (G : Grids K)
    (hG : ∀ c ∈ cs, ∀ i j, G (i, j, c) = toGrid (P i j) (M i j) c) :
    (loop (passComp domR domZ) cs G >>= fun G' => .ok fun i j => cs.foldl (fun m c => ofGrid (P i j) m c (G' (i, j, c))) (M i j)) =
      loop (overlayComp P domR domZ) cs M := by
  induction cs generalizing M G with
  | nil => rfl
  | cons c cs ih =>
    obtain ⟨n1, n2⟩ := List.nodup_cons.1 nd
    have g0 : (fun i j => G (i, j, c)) = fun i j => toGrid (P i j) (M i j) c := by
      funext i j
      exact hG c (List.mem_cons_self ..) i j
    rw [loop_cons, loop_cons]
    unfold passComp overlayComp
    rw [g0]
    cases e : overlayPass domR domZ (fun i j => toGrid (P i j) (M i j) c) with
    | fatal => rfl
    | ub => rfl
    | ok D =>
      simp only [Res.ok_bind]
      have ih := ih n2 (fun i j => ofGrid (P i j) (M i j) c (D i j)) (fun l => if l.2.2 = c then D l.1 l.2.1 else G l) (by
        intro c' hc' i j
        have ne : c' ≠ c := by
          rintro rfl
          exact n1 hc'
        dsimp only
        rw [if_neg ne, hG c' (List.mem_cons_of_mem _ hc') i j]
        unfold toGrid ofGrid
        congr 1
        funext a b
        rw [if_neg fun h => ne h.1])
      show _ = loop (overlayComp P domR domZ) cs _
      rw [← ih]
      show (loop (passComp domR domZ) cs _ >>= _) = _
      cases e' : loop (passComp domR domZ) cs (fun l => if l.2.2 = c then D l.1 l.2.1 else G l) with
      | fatal => rfl
      | ub => rfl
      | ok G' =>
        simp only [Res.ok_bind, List.foldl_cons]
        congr 1
        funext i j
        rw [passes_keep e' (l := (i, j, c)) n1]
        dsimp only
        rw [if_pos rfl]

theorem follows_overlay [Add K] (P : Nat → Nat → Par K) (domR domZ : Nat) (cs : List Comp) (nd : cs.Nodup) :
    Follows (Overlay P domR domZ cs) (loop (overlayComp P domR domZ) cs) := by
  have base := follows_sweeps (K := K) domR domZ cs colours
  refine (base.map (fun (M : Solvers K) l => toGrid (P l.1 l.2.1) (M l.1 l.2.1) l.2.2) fun M G i j =>
    cs.foldl (fun m c => ofGrid (P i j) m c (G (i, j, c))) (M i j)).congr fun M M' => ?_
  rw [← passes_comp P domR domZ cs nd M (fun l => toGrid (P l.1 l.2.1) (M l.1 l.2.1) l.2.2) fun _ _ _ _ => rfl, bind_iff, bind_iff]
  have : colours.flatMap (colour domR domZ) = sweep domR domZ := rfl
  simp only [this, visits_comps domR domZ cs nd]

theorem follows_maxwell [Field K] (P : Nat → Nat → Par K) (domR domZ : Nat) : Follows (Maxwell P domR domZ) (solveMaxwell P domR domZ) :=
  Follows.then (follows_each domR domZ _) (Follows.then (follows_overlay P domR domZ _ (by decide))
    (Follows.then (follows_each domR domZ _) (follows_overlay P domR domZ _ (by decide))))

theorem follows_currents (E : Pic.Env) (ps : Nat → Nat → List (VB.Part ℝ)) :
    Follows (Currents E ps) (solveCurrent E.dist E.p E.domR E.domZ E.e ps) :=
  Follows.then (follows_each E.domR E.domZ _) (follows_overlay _ E.domR E.domZ _ (by decide))

end
end Threads
end Pico
