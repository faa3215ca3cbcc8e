import Verif.Spec.Nbrun

/-!
# C139: notebooks run with the values that are asked for
-/

set_option linter.unusedSimpArgs false
set_option linter.unusedVariables false
set_option linter.unusedSectionVars false

namespace Pico
namespace Nbrun

/-! ### Names and values -/

theorem IsName.clean {v : List Char} (h : IsName v) : ∀ c ∈ v, c ≠ '"' ∧ c ≠ '\\' ∧ c ≠ '\t' ∧ c ≠ '=' ∧ c ≠ ' ' := by
  intro c hc
  rcases h.2 c hc with h | rfl
  · refine ⟨?_, ?_, ?_, ?_, ?_⟩ <;> (rintro rfl; exact absurd h (by decide))
  · decide

theorem esc_plain (t : List Char) (h : ∀ c ∈ t, c ≠ '"' ∧ c ≠ '\\' ∧ c ≠ '\t') : esc t = t := by
  induction t with
  | nil => rfl
  | cons c t ih =>
    obtain ⟨h1, h2, h3⟩ := h c (by simp)
    rw [esc, if_neg h1, if_neg h2, if_neg h3, ih fun c hc => h c (by simp [hc])]

theorem esc_append (s t : List Char) : esc (s ++ t) = esc s ++ esc t := by
  induction s with
  | nil => rfl
  | cons c s ih =>
    simp only [List.cons_append, esc]
    split_ifs <;> simp [ih]

theorem after_append (p s : List Char) : after p (p ++ s) = some s := by
  induction p with
  | nil => cases s <;> rfl
  | cons c p ih => simp [after, ih]

theorem after_some {p s r : List Char} (h : after p s = some r) : s = p ++ r := by
  induction p generalizing s with
  | nil =>
    cases s <;> simp_all [after]
  | cons c p ih =>
    cases s with
    | nil => simp [after] at h
    | cons d s =>
      simp only [after] at h
      split_ifs at h with e
      subst e
      rw [ih h, List.cons_append]

theorem closing_end (s : List Char) : closing (s ++ ['\\', 'n', '"', ',']) = some [','] := by
  induction s with
  | nil => decide
  | cons c s ih => rw [List.cons_append, closing, ih]

/-- Skipping. -/
theorem sed_skip (v x p s : List Char) : sed v x p.length (p ++ s) = sed v x 0 s := by
  induction p with
  | nil => rfl
  | cons c p ih => exact ih

theorem sed_other (v x : List Char) {c : Char} (hc : c ≠ '"') (s : List Char) : sed v x 0 (c :: s) = c :: sed v x 0 s := by
  have : found v (c :: s) = none := by
    unfold found
    simp [after, Ne.symm hc]
  rw [sed, this]

theorem blank_spaces (n : Nat) (r : List Char) :
    (List.replicate n ' ' ++ '=' :: r).dropWhile (fun c => c = ' ' || c = '\t') = '=' :: r := by
  induction n with
  | zero => rfl
  | succ n ih => simp [List.replicate_succ, ih]

/-- A stored assignment is found. -/
theorem found_assign {v t : List Char} (hv : IsName v) (ha : Assigns v t) :
    found v ('"' :: (esc t ++ ending false)) = some [','] := by
  obtain ⟨n, r, rfl⟩ := ha
  have e1 : esc v = v := esc_plain v fun c hc => ⟨(hv.clean c hc).1, (hv.clean c hc).2.1, (hv.clean c hc).2.2.1⟩
  have e2 : esc (List.replicate n ' ') = List.replicate n ' ' := esc_plain _ (by
    intro c hc
    rw [List.eq_of_mem_replicate hc]
    decide)
  have e3 : esc ('=' :: r) = '=' :: esc r := by simp [esc]
  rw [esc_append, esc_append, e1, e2, e3]
  have : '"' :: (v ++ (List.replicate n ' ' ++ '=' :: esc r) ++ ending false) =
      ('"' :: v) ++ (List.replicate n ' ' ++ '=' :: (esc r ++ ending false)) := by simp
  rw [this]
  unfold found
  rw [after_append]
  simp only
  rw [blank_spaces]
  exact closing_end _

theorem esc_head {v t q s u : List Char} (hv : ∀ c ∈ v, c ≠ '"' ∧ c ≠ '\\' ∧ c ≠ '\t') (hq : ∀ c s, q = c :: s → c = '"' ∨ c = '\\')
    (h : esc t ++ q = v ++ u) (hu : v ≠ [] → q ≠ []) : ∃ t', t = v ++ t' ∧ u = esc t' ++ q := by
  induction v generalizing t with
  | nil => exact ⟨t, rfl, h.symm⟩
  | cons c v ih =>
    obtain ⟨c1, c2, c3⟩ := hv c (by simp)
    cases t with
    | nil =>
      simp only [esc, List.nil_append, List.cons_append] at h
      rcases hq c _ h with e | e
      · exact absurd e c1
      · exact absurd e c2
    | cons d t =>
      simp only [esc] at h
      split_ifs at h with h1 h2 h3
      · simp only [List.cons_append, List.cons.injEq] at h
        exact absurd h.1.symm c2
      · simp only [List.cons_append, List.cons.injEq] at h
        exact absurd h.1.symm c2
      · simp only [List.cons_append, List.cons.injEq] at h
        exact absurd h.1.symm c2
      · simp only [List.cons_append, List.cons.injEq] at h
        obtain ⟨rfl, h⟩ := h
        obtain ⟨t', rfl, e⟩ := ih (fun c hc => hv c (by simp [hc])) h fun _ => hu (by simp)
        exact ⟨t', rfl, e⟩

theorem esc_blank {t q w : List Char} (hq : ∀ c s, q = c :: s → c = '"' ∨ c = '\\')
    (h : (esc t ++ q).dropWhile (fun c => c = ' ' || c = '\t') = '=' :: w) :
    ∃ n r, t = List.replicate n ' ' ++ '=' :: r := by
  induction t with
  | nil =>
    simp only [esc, List.nil_append] at h
    cases q with
    | nil => simp at h
    | cons c q =>
      rcases hq c q rfl with rfl | rfl <;> simp at h
  | cons d t ih =>
    simp only [esc] at h
    split_ifs at h with h1 h2 h3
    · simp at h
    · simp at h
    · simp at h
    · by_cases hd : d = ' '
      · subst hd
        simp only [List.cons_append, List.dropWhile_cons] at h
        simp at h
        obtain ⟨n, r, rfl⟩ := ih h
        exact ⟨n + 1, r, by simp [List.replicate_succ]⟩
      · simp only [List.cons_append, List.dropWhile_cons] at h
        simp [hd, h3] at h
        exact ⟨0, t, by simp [h.1]⟩

theorem ending_head (b : Bool) : ∀ c s, ending b = c :: s → c = '"' ∨ c = '\\' := by
  intro c s h
  cases b <;> simp [ending] at h
  · exact Or.inr h.1.symm
  · exact Or.inl h.1.symm

/-- Nothing else is. -/
theorem found_none {v t : List Char} (hv : IsName v) (b : Bool) (ha : ¬ Assigns v t) : found v ('"' :: (esc t ++ ending b)) = none := by
  unfold found
  cases e : after ('"' :: v) ('"' :: (esc t ++ ending b)) with
  | none => rfl
  | some u =>
    have h := after_some e
    simp only [List.cons_append, List.cons.injEq, true_and] at h
    obtain ⟨t', rfl, rfl⟩ := esc_head (s := []) (fun c hc => ⟨(hv.clean c hc).1, (hv.clean c hc).2.1, (hv.clean c hc).2.2.1⟩)
      (ending_head b) h (fun _ => by cases b <;> simp [ending])
    simp only
    split
    · rename_i w hw
      obtain ⟨n, r, rfl⟩ := esc_blank (ending_head b) hw
      exact absurd ⟨n, r, rfl⟩ ha
    · rfl

/-- A stored assignment, from its opening quote on, is replaced up to the end of the line. -/
theorem sed_assign {v x t : List Char} (hv : IsName v) (ha : Assigns v t) :
    sed v x 0 ('"' :: (esc t ++ ending false)) = '"' :: (v ++ '=' :: (x ++ ['\\', 'n', '"', ','])) := by
  rw [sed, found_assign hv ha]
  have e : esc t ++ ending false = (esc t ++ ['\\', 'n', '"']) ++ [','] := by simp [ending]
  have l : (esc t ++ ending false).length - [','].length = (esc t ++ ['\\', 'n', '"']).length := by simp [ending]
  simp only
  rw [l, e, sed_skip, sed_other v x (by decide)]
  simp [sed]

theorem esc_value {v x : List Char} (hv : IsName v) (hx : IsValue x) : esc (v ++ '=' :: x) = v ++ '=' :: x := by
  refine esc_plain _ fun c hc => ?_
  rw [List.mem_append, List.mem_cons] at hc
  rcases hc with hc | rfl | hc
  · exact ⟨(hv.clean c hc).1, (hv.clean c hc).2.1, (hv.clean c hc).2.2.1⟩
  · decide
  · have := hx c hc
    simp only [List.mem_cons, not_or] at this
    exact ⟨this.1, this.2.1, this.2.2.1⟩

theorem sed_indent (v x s : List Char) :
    sed v x 0 (' ' :: ' ' :: ' ' :: ' ' :: s) = ' ' :: ' ' :: ' ' :: ' ' :: sed v x 0 s := by
  rw [sed_other v x (by decide), sed_other v x (by decide), sed_other v x (by decide), sed_other v x (by decide)]

/-- Inside of a line up to its end. -/
theorem sed_rest {v t : List Char} (x : List Char) (hv : IsName v) (b : Bool) (hq : NotQuoted v t) :
    sed v x 0 (esc t ++ ending b) = esc t ++ ending b := by
  induction t with
  | nil =>
    have f : ∀ s, found v ('"' :: s) = none ∨ ∃ c s', s = c :: s' := fun s => by
      cases s with
      | nil =>
        left
        cases v with
        | nil => exact absurd rfl hv.1
        | cons c v => simp [found, after]
      | cons c s' => exact Or.inr ⟨c, s', rfl⟩
    cases b
    · simp only [esc, List.nil_append, ending, Bool.false_eq_true, if_false]
      rw [sed_other v x (by decide), sed_other v x (by decide)]
      have : found v ['"', ','] = none := by
        cases v with
        | nil => exact absurd rfl hv.1
        | cons c v =>
          unfold found
          simp only [after, if_true]
          by_cases h : c = ','
          · subst h
            cases v <;> simp [after]
          · simp [h]
      rw [sed, this]
      simp only
      rw [sed_other v x (by decide)]
      simp [sed]
    · simp only [esc, List.nil_append, ending, if_true]
      have : found v ['"'] = none := by
        rcases f [] with h | ⟨_, _, h⟩
        · exact h
        · cases h
      rw [sed, this]
      simp [sed]
  | cons c t ih =>
    have hq' : NotQuoted v t := fun a b h => hq (c :: a) b (by rw [h]; rfl)
    have ih := ih hq'
    simp only [esc]
    split_ifs with h1 h2 h3
    · simp only [List.cons_append]
      subst h1
      rw [sed_other v x (by decide), sed, found_none hv b (hq [] t rfl)]
      simp only
      rw [ih]
    · simp only [List.cons_append]
      rw [sed_other v x (by decide), sed_other v x (by decide), ih]
    · simp only [List.cons_append]
      rw [sed_other v x (by decide), sed_other v x (by decide), ih]
    · simp only [List.cons_append]
      rw [sed_other v x h1, ih]

/-! ### One argument -/

theorem name_arg {v x : List Char} (hv : IsName v) : name (arg (v, x)) = v := by
  unfold name arg
  rw [List.takeWhile_append_of_pos]
  · simp
  · intro c hc
    simpa using (hv.clean c hc).2.2.2.1

theorem drop_arg {v x : List Char} (hv : IsName v) : (arg (v, x)).dropWhile (· ≠ '=') = '=' :: x := by
  unfold arg
  rw [List.dropWhile_append_of_pos]
  · simp
  · intro c hc
    simpa using (hv.clean c hc).2.2.2.1

theorem value_arg {v x : List Char} (hv : IsName v) (hx : IsValue x) : value (arg (v, x)) = x := by
  unfold value
  rw [drop_arg hv]
  simp only
  have h : ∀ c ∈ x, decide (c ≠ '=') = true := by
    intro c hc
    have := hx c hc
    simp only [List.mem_cons, not_or] at this
    simpa using this.2.2.2.1
  have e := List.takeWhile_append_of_pos (l₂ := []) h
  simpa using e

theorem set_line {v x t : List Char} (hv : IsName v) (hx : IsValue x) (ha : Assigns v t) :
    sed v x 0 (stored ⟨t, false⟩) = stored ⟨v ++ '=' :: x, false⟩ := by
  unfold stored
  rw [sed_indent, sed_assign hv ha, esc_value hv hx]
  simp [ending]

theorem kept_line {v t : List Char} (x : List Char) (hv : IsName v) (b : Bool) (ha : ¬ Assigns v t) (hq : NotQuoted v t) :
    sed v x 0 (stored ⟨t, b⟩) = stored ⟨t, b⟩ := by
  unfold stored
  rw [sed_indent, sed, found_none hv b ha]
  simp only
  rw [sed_rest x hv b hq]

/-- A variable is set: with the argument `v=x`, every line (but the last of a cell) that assigns to `v` becomes `v=x`. -/
theorem C139_set_partial (v x t : List Char) (hv : IsName v) (hx : IsValue x) (ha : Assigns v t) :
    substituted [arg (v, x)] (stored ⟨t, false⟩) = stored ⟨v ++ '=' :: x, false⟩ := by
  simp only [substituted, List.foldl_cons, List.foldl_nil]
  rw [name_arg hv, value_arg hv hx, set_line hv hx ha]

/-! ### All arguments -/

/-- A line assigns to one variable only. -/
theorem assigns_unique {v w t : List Char} (hv : IsName v) (hw : IsName w) (ha : Assigns v t) (hb : Assigns w t) : w = v := by
  have key : ∀ {v : List Char}, IsName v → Assigns v t → t.takeWhile (fun c => c ≠ ' ' && c ≠ '=') = v := by
    rintro v hv ⟨n, r, rfl⟩
    rw [List.takeWhile_append_of_pos]
    · cases n <;> simp [List.replicate_succ]
    · intro c hc
      have := hv.clean c hc
      simp [this.2.2.2.1, this.2.2.2.2]
  rw [← key hv ha, ← key hw hb]

theorem assigns_name {v w x : List Char} (hv : IsName v) (hw : IsName w) (ha : Assigns w (v ++ '=' :: x)) : w = v :=
  assigns_unique hv hw ⟨0, x, by simp⟩ ha

theorem notQuoted_value {v w x : List Char} (hv : IsName v) (hx : IsValue x) : NotQuoted w (v ++ '=' :: x) := by
  intro a b h _
  have : '"' ∈ v ++ '=' :: x := by rw [h]; simp
  rw [List.mem_append, List.mem_cons] at this
  rcases this with h | h | h
  · exact (hv.clean _ h).1 rfl
  · exact absurd h (by decide)
  · exact hx _ h (by simp)

theorem assigns_self (v x : List Char) : Assigns v (v ++ '=' :: x) := ⟨0, x, by simp⟩

/-- A line that none of the arguments is about is kept. -/
theorem C139_kept (args : List (List Char × List Char)) (l : Line) (h : ∀ a ∈ args, IsName a.1 ∧ IsValue a.2)
    (hn : ∀ a ∈ args, ¬ Assigns a.1 l.text ∧ NotQuoted a.1 l.text) : substituted (args.map arg) (stored l) = stored l := by
  induction args with
  | nil => rfl
  | cons a args ih =>
    obtain ⟨v, x⟩ := a
    obtain ⟨hv, hx⟩ := h (v, x) (by simp)
    obtain ⟨n1, n2⟩ := hn (v, x) (by simp)
    have e : substituted ((( v, x) :: args).map arg) (stored l) = substituted (args.map arg) (sed v x 0 (stored l)) := by
      simp only [substituted, List.map_cons, List.foldl_cons]
      rw [name_arg hv, value_arg hv hx]
    rw [e, kept_line x hv l.last n1 n2]
    exact ih (fun a ha => h a (by simp [ha])) fun a ha => hn a (by simp [ha])

/-- With any arguments, a line (but the last of a cell) that assigns to a variable gets the value that is given last for it. -/
theorem C139_run_partial (before behind : List (List Char × List Char)) (v x t : List Char)
    (h : ∀ a ∈ before ++ (v, x) :: behind, IsName a.1 ∧ IsValue a.2) (hl : ∀ a ∈ behind, a.1 ≠ v)
    (ha : Assigns v t) (hq : ∀ a ∈ before, NotQuoted a.1 t) :
    substituted ((before ++ (v, x) :: behind).map arg) (stored ⟨t, false⟩) = stored ⟨v ++ '=' :: x, false⟩ := by
  obtain ⟨hv, hx⟩ := h (v, x) (by simp)
  -- before: the line assigns to `v` all the time
  have pre : ∃ t', Assigns v t' ∧ substituted (before.map arg) (stored ⟨t, false⟩) = stored ⟨t', false⟩ := by
    have h' : ∀ a ∈ before, IsName a.1 ∧ IsValue a.2 := fun a ha => h a (by simp [ha])
    clear h hl
    induction before generalizing t with
    | nil => exact ⟨t, ha, rfl⟩
    | cons a before ih =>
      obtain ⟨w, y⟩ := a
      obtain ⟨hw, hy⟩ := h' (w, y) (by simp)
      have e : substituted (((w, y) :: before).map arg) (stored ⟨t, false⟩) =
          substituted (before.map arg) (sed w y 0 (stored ⟨t, false⟩)) := by
        simp only [substituted, List.map_cons, List.foldl_cons]
        rw [name_arg hw, value_arg hw hy]
      rw [e]
      by_cases c : Assigns w t
      · obtain rfl := assigns_unique hv hw ha c
        rw [set_line hw hy c]
        exact ih _ (assigns_self w y) (fun a _ => notQuoted_value hw hy)
          fun a ha => h' a (by simp [ha])
      · rw [kept_line y hw false c (hq (w, y) (by simp))]
        exact ih t ha (fun a ha => hq a (by simp [ha])) fun a ha => h' a (by simp [ha])
  obtain ⟨t', ha', e⟩ := pre
  have e2 : substituted ((before ++ (v, x) :: behind).map arg) (stored ⟨t, false⟩) =
      substituted (behind.map arg) (sed v x 0 (substituted (before.map arg) (stored ⟨t, false⟩))) := by
    simp only [substituted, List.map_append, List.map_cons, List.foldl_append, List.foldl_cons]
    rw [name_arg hv, value_arg hv hx]
  rw [e2, e, set_line hv hx ha']
  refine C139_kept behind ⟨_, false⟩ (fun a ha => h a (by simp [ha])) fun a hb => ⟨fun c => ?_, notQuoted_value hv hx⟩
  exact hl a hb (assigns_name hv (h a (by simp [hb])).1 c)

/-- Where C139 fails: the last line of a cell keeps its value. -/
theorem C139_last_fails (v x t : List Char) (hv : IsName v) (hx : IsValue x) (ht : ∀ c ∈ t, c ≠ '"' ∧ c ≠ '\\' ∧ c ≠ '\t') :
    substituted [arg (v, x)] (stored ⟨t, true⟩) = stored ⟨t, true⟩ := by
  simp only [substituted, List.foldl_cons, List.foldl_nil]
  rw [name_arg hv, value_arg hv hx]
  have nq : ∀ u, NotQuoted u t := fun u a b h _ => by
    have : '"' ∈ t := by rw [h]; simp
    exact (ht _ this).1 rfl
  have nc : ∀ s : List Char, (∀ c ∈ s, c ≠ '\\') → closing s = none := by
    intro s hs
    induction s with
    | nil => rfl
    | cons c s ih =>
      rw [closing, ih fun c hc => hs c (by simp [hc])]
      simp [after, Ne.symm (hs c (by simp))]
  unfold stored
  rw [sed_indent]
  have f : found v ('"' :: (esc t ++ ending true)) = none := by
    unfold found
    cases e : after ('"' :: v) ('"' :: (esc t ++ ending true)) with
    | none => rfl
    | some u =>
      have h := after_some e
      simp only [List.cons_append, List.cons.injEq, true_and] at h
      have hu : ∀ c ∈ u, c ≠ '\\' := by
        intro c hc
        have : c ∈ esc t ++ ending true := by rw [h]; simp [hc]
        rw [esc_plain t ht, List.mem_append] at this
        rcases this with h | h
        · exact (ht c h).2.1
        · simp [ending] at h
          subst h
          decide
      simp only
      split
      · rename_i w hw
        refine nc w fun c hc => hu c ?_
        exact (List.dropWhile_sublist _).subset (by rw [hw]; simp [hc])
      · rfl
  rw [sed, f]
  simp only
  rw [sed_rest x hv true (nq v)]

/-- Where C139 fails: a text in double quotes that begins like an assignment is cut off, together with everything behind it. -/
theorem C139_quoted_fails (v x a b : List Char) (hv : IsName v) (hx : IsValue x) (hn : ¬ Assigns v (a ++ '"' :: b))
    (hb : Assigns v b) (ha : ∀ c ∈ a, c ≠ '"') :
    substituted [arg (v, x)] (stored ⟨a ++ '"' :: b, false⟩) = stored ⟨a ++ '"' :: (v ++ '=' :: x), false⟩ := by
  simp only [substituted, List.foldl_cons, List.foldl_nil]
  rw [name_arg hv, value_arg hv hx]
  unfold stored
  rw [sed_indent, sed, found_none hv false hn]
  simp only
  have e : ∀ s, esc ('"' :: s) = '\\' :: '"' :: esc s := fun s => by simp [esc]
  rw [esc_append, esc_append, e, e, esc_value hv hx]
  have go : ∀ a : List Char, (∀ c ∈ a, c ≠ '"') → ∀ s, sed v x 0 (esc a ++ s) = esc a ++ sed v x 0 s := by
    intro a ha s
    induction a with
    | nil => rfl
    | cons c a ih =>
      have ih := ih fun c hc => ha c (by simp [hc])
      have c1 := ha c (by simp)
      simp only [esc, if_neg c1]
      split_ifs
      · simp only [List.cons_append]
        rw [sed_other v x (by decide), sed_other v x (by decide), ih]
      · simp only [List.cons_append]
        rw [sed_other v x (by decide), sed_other v x (by decide), ih]
      · simp only [List.cons_append]
        rw [sed_other v x c1, ih]
  rw [List.append_assoc, go a ha]
  simp only [List.cons_append]
  rw [sed_other v x (by decide), sed_assign hv hb]
  simp [ending]

/-- Where C139 fails: values with an equals sign (calls with named arguments) are cut off before it. -/
theorem C139_value_fails (v x y t : List Char) (hv : IsName v) (hx : IsValue x) (ha : Assigns v t) :
    substituted [arg (v, x ++ '=' :: y)] (stored ⟨t, false⟩) = stored ⟨v ++ '=' :: x, false⟩ := by
  simp only [substituted, List.foldl_cons, List.foldl_nil]
  have e : value (arg (v, x ++ '=' :: y)) = x := by
    unfold value
    rw [drop_arg hv]
    simp only
    rw [List.takeWhile_append_of_pos]
    · simp
    · intro c hc
      have := hx c hc
      simp only [List.mem_cons, not_or] at this
      simpa using this.2.2.2.1
  rw [name_arg hv, e, set_line hv hx ha]

/-! ### Instances -/

theorem exName : IsName "cmap".toList := ⟨by decide, by decide⟩
theorem exStep : IsName "frame_step".toList := ⟨by decide, by decide⟩
theorem exValue : IsValue "'gray_r'".toList := by unfold IsValue; decide +kernel
theorem exAssigns : Assigns "cmap".toList "cmap = \"terrain\" # colours".toList := ⟨1, _, rfl⟩

example : substituted ["cmap='gray_r'".toList] "    \"cmap = \\\"terrain\\\" # colours\\n\",".toList = "    \"cmap='gray_r'\\n\",".toList :=
  C139_set_partial "cmap".toList "'gray_r'".toList "cmap = \"terrain\" # colours".toList exName exValue exAssigns

/-- Two values for one variable, and another variable. -/
example : substituted ["cmap='jet'".toList, "cmap='gray_r'".toList, "frame_step=2".toList] (stored ⟨"cmap = \"terrain\" # colours".toList, false⟩) =
    stored ⟨"cmap='gray_r'".toList, false⟩ :=
  C139_run_partial [("cmap".toList, "'jet'".toList)] [("frame_step".toList, "2".toList)] "cmap".toList "'gray_r'".toList _
    (by
      intro a ha
      simp only [List.cons_append, List.nil_append, List.mem_cons, List.not_mem_nil, or_false] at ha
      rcases ha with rfl | rfl | rfl
      · exact ⟨exName, by unfold IsValue; decide +kernel⟩
      · exact ⟨exName, exValue⟩
      · exact ⟨exStep, by unfold IsValue; decide +kernel⟩)
    (by
      intro a ha
      simp only [List.mem_cons, List.not_mem_nil, or_false] at ha
      subst ha
      decide)
    exAssigns
    (by
      intro a ha
      simp only [List.mem_cons, List.not_mem_nil, or_false] at ha
      subst ha
      rintro p q h ⟨n, r, rfl⟩
      have : ('"' :: "cmap".toList) <:+: "cmap = \"terrain\" # colours".toList := ⟨p, List.replicate n ' ' ++ '=' :: r, by rw [h]; simp⟩
      exact absurd this (by decide +kernel))

example : substituted ["t=5".toList] (stored ⟨"plot(label=\"t=0\")".toList, false⟩) = stored ⟨"plot(label=\"t=5".toList, false⟩ := by
  decide +kernel

end Nbrun
end Pico
