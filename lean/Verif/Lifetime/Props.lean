import Verif.Lifetime.Lemmas
set_option linter.unusedSectionVars false
namespace Helper.Lifetime

/-- Specification: the calls whose result can be kept. -/
def Safe : Fn → List Arg → Prop
  | .cStr, as => ∀ a ∈ as, ∃ x, a = .var x ∨ a = .moved x
  | .get _, as | .accept (.own _), as | .tie, as => ∀ a ∈ as, ∃ x, a = .var x ∨ a = .other x ∨ a = .moved x
  | .accept (.arg _), _ => False
  | .accept (.value _), _ => True

/-- Specification: what a kept result shows, in terms of the variables. -/
def shows (f : Fn) (as : List Arg) (s : List Obj) : List (Option (List Nat)) :=
  match f with
  | .accept (.value k) => [some [k]]
  | .get i | .accept (.own i) => (as.flatMap Arg.names).map fun x => (s[x]?).bind fun o => (o.parts[i]?).map fun v => [v]
  | _ => (as.flatMap Arg.names).map fun x => (s[x]?).map Obj.parts

/-- The variables that are named are alive. -/
def Alive (as : List Arg) (s : List Obj) : Prop := ∀ a ∈ as, ∀ x ∈ a.names, ∃ o, s[x]? = some o ∧ o.alive = true

theorem not_temp (f : Fn) (hf : ∀ k, f ≠ .accept (.value k)) (as : List Arg) (h : Safe f as) : ∀ a ∈ as, ¬ a.temp f.param := by
  intro a ha ht
  unfold Safe at h
  split at h
  · obtain ⟨x, rfl | rfl⟩ := h a ha <;> simp [Arg.temp] at ht
  · obtain ⟨x, rfl | rfl | rfl⟩ := h a ha <;> simp [Arg.temp, Fn.param] at ht
  · obtain ⟨x, rfl | rfl | rfl⟩ := h a ha <;> simp [Arg.temp, Fn.param] at ht
  · obtain ⟨x, rfl | rfl | rfl⟩ := h a ha <;> simp [Arg.temp, Fn.param] at ht
  · exact h
  · exact hf _ rfl

theorem temp_of (f : Fn) (hf : ∀ ps, f ≠ .accept (.arg ps)) (as : List Arg) (h : ¬ Safe f as) : ∃ a ∈ as, a.temp f.param := by
  apply Classical.byContradiction
  intro hn
  apply h
  have hn : ∀ a ∈ as, ¬ a.temp f.param := fun a ha ht => hn ⟨a, ha, ht⟩
  unfold Safe
  split
  · intro a ha
    have := hn a ha
    cases a <;> simp [Arg.temp, Fn.param] at this ⊢
  · intro a ha
    have := hn a ha
    cases a <;> simp [Arg.temp, Fn.param] at this ⊢
  · intro a ha
    have := hn a ha
    cases a <;> simp [Arg.temp, Fn.param] at this ⊢
  · intro a ha
    have := hn a ha
    cases a <;> simp [Arg.temp, Fn.param] at this ⊢
  · exact hf _ rfl
  · trivial

/-- The objects that a result refers to. -/
def Out.objs : Out → List Nat
  | .refs l => l.map Ref.obj
  | .val _ => []

/-- The functions other than `accept` with visitors that return their argument or a value refer to all their arguments. -/
theorem body_objs (f : Fn) (hf : ∀ v, f = .accept v → ∃ i, v = .own i) (ns : List Nat) (s s' : List Obj) (r : Out)
    (h : f.body ns s = some (r, s')) : r.objs = ns ∧ s' = s ∧ (∃ l, r = .refs l) := by
  unfold Fn.body at h
  split at h
  · simp only [Option.map_eq_some_iff, Prod.mk.injEq] at h
    obtain ⟨_, _, rfl, rfl⟩ := h; exact ⟨rfl, rfl, _, rfl⟩
  · simp only [Option.bind_eq_some_iff] at h
    obtain ⟨o, _, h⟩ := h
    split at h
    · cases h; exact ⟨rfl, rfl, _, rfl⟩
    · cases h
  · cases h; exact ⟨by simp [Out.objs, Function.comp_def], rfl, _, rfl⟩
  · simp only [Option.bind_eq_some_iff] at h
    obtain ⟨o, _, h⟩ := h
    split at h
    · cases h; exact ⟨rfl, rfl, _, rfl⟩
    · cases h
  · obtain ⟨i, e⟩ := hf _ rfl; cases e
  · obtain ⟨i, e⟩ := hf _ rfl; cases e
  · cases h

theorem kept_dead (l : List Ref) (s : List Obj) (n : Nat) (hn : n ∈ l.map Ref.obj)
    (h : ∃ o, s[n]? = some o ∧ o.alive = false) : ¬ ∃ v, (Out.refs l).read s = .ok v := by
  rw [read_refs]
  intro ha
  obtain ⟨r, hr, rfl⟩ := List.mem_map.mp hn
  obtain ⟨v, hv⟩ := ha r hr
  obtain ⟨o, ho, hd⟩ := h
  rw [read_dead r s o ho hd] at hv
  cases hv

theorem tie_read (ns : List Nat) (s : List Obj) (hal : ∀ n ∈ ns, ∃ o, s[n]? = some o ∧ o.alive = true) (vs : List (List Nat))
    (hv : ns.map (fun x => (s[x]?).map Obj.parts) = vs.map some) : readAll (ns.map fun n => ⟨n, none, none⟩) s = .ok vs := by
  induction ns generalizing vs with
  | nil => cases vs with
    | nil => rfl
    | cons a b => cases hv
  | cons n ns ih => cases vs with
    | nil => cases hv
    | cons v vs =>
      simp only [List.map_cons, List.cons.injEq] at hv
      obtain ⟨o, ho, hoa⟩ := hal n (by simp)
      have := ih (fun m hm => hal m (List.mem_cons_of_mem _ hm)) vs hv.2
      rw [ho] at hv
      simp only [Option.map_some, Option.some.injEq] at hv
      simp only [List.map_cons, readAll, this]
      simp [Ref.read, ho, hoa, hv.1, Res.bind]

/-- Results that can be kept, read in a later state in which the variables are alive, and for `c_str` not modified. -/
theorem kept_read (f : Fn) (as : List Arg) (s s' s'' : List Obj) (r : Out) (h : keep f as s = some (r, s'))
    (hs : Safe f as) (ha : Alive as s'')
    (hg : f = .cStr → ∀ a ∈ as, ∀ x ∈ a.names, (s''[x]?).map Obj.gen = (s[x]?).map Obj.gen)
    (vs : List (List Nat)) (hv : shows f as s'' = vs.map some) : r.read s'' = .ok vs := by
  obtain ⟨ns, ts, s1, s2, h1, h2, rfl⟩ := keep_parts f as s s' r h
  by_cases hf' : ∃ k, f = .accept (.value k)
  · obtain ⟨k, rfl⟩ := hf'
    have : vs = [[k]] := by
      cases vs with
      | nil => simp [shows] at hv
      | cons v vs => simp [shows] at hv; simp [← hv.1, hv.2]
    subst this
    cases ns with
    | nil => cases h2
    | cons n l => cases l with
      | nil => cases h2; rfl
      | cons _ _ => cases h2
  have hf : ∀ k, f ≠ .accept (.value k) := fun k e => hf' ⟨k, e⟩
  clear hf'
  obtain ⟨hns, rfl, e1⟩ := bindAll_vars _ _ _ _ _ _ h1 (not_temp f hf as hs)
  subst e1
  have hal : ∀ n ∈ ns, ∃ o, s''[n]? = some o ∧ o.alive = true := by
    intro n hn
    rw [hns, List.mem_flatMap] at hn
    obtain ⟨a, haa, hx⟩ := hn
    exact ha a haa n hx
  have hgen : f = .cStr → ∀ n ∈ ns, (s''[n]?).map Obj.gen = (s1[n]?).map Obj.gen := by
    intro e n hn
    rw [hns, List.mem_flatMap] at hn
    obtain ⟨a, haa, hx⟩ := hn
    exact hg e a haa n hx
  have one : ∀ i n, n ∈ ns → ∀ w, ((s''[n]?).bind fun o => (o.parts[i]?).map fun v => [v]) = some w →
      (Ref.mk n (some i) none).read s'' = .ok w := by
    intro i n hn w hw
    obtain ⟨o, ho, hoa⟩ := hal n hn
    rw [ho] at hw
    simp only [Option.bind_some, Option.map_eq_some_iff] at hw
    obtain ⟨v, hv, rfl⟩ := hw
    simp [Ref.read, ho, hoa, hv]
  have single : ∀ i n, ns = [n] → shows f as s'' = (as.flatMap Arg.names).map (fun x => (s''[x]?).bind fun o => (o.parts[i]?).map fun v => [v]) →
      r = .refs [⟨n, some i, none⟩] → r.read s'' = .ok vs := by
    intro i n e hsh hr
    rw [hsh, ← hns, e] at hv
    cases vs with
    | nil => cases hv
    | cons v vs =>
      simp only [List.map_cons, List.map_nil, List.cons.injEq] at hv
      have : vs = [] := by cases vs with | nil => rfl | cons a b => simp at hv
      subst this
      rw [hr]
      simp only [Out.read, readAll, one i n (by simp [e]) v hv.1, Res.bind]
  unfold Fn.body at h2
  split at h2
  · rename_i n
    simp only [Option.map_eq_some_iff, Prod.mk.injEq] at h2
    obtain ⟨o, ho, rfl, rfl⟩ := h2
    have hv : [n].map (fun x => (s''[x]?).map Obj.parts) = vs.map some := by rw [hns]; exact hv
    obtain ⟨o', ho', hoa⟩ := hal n (by simp)
    have hge := hgen rfl n (by simp)
    rw [ho, ho'] at hge
    simp only [Option.map_some, Option.some.injEq] at hge
    cases vs with
    | nil => cases hv
    | cons v vs =>
      simp only [List.map_cons, List.map_nil, List.cons.injEq, ho', Option.map_some, Option.some.injEq] at hv
      have : vs = [] := by cases vs with | nil => rfl | cons a b => simp at hv
      subst this
      simp [Out.read, readAll, Ref.read, ho', hoa, hge, hv.1, Res.bind]
  · rename_i i n
    simp only [Option.bind_eq_some_iff] at h2
    obtain ⟨o, _, h2⟩ := h2
    split at h2
    · cases h2; exact single i n rfl rfl rfl
    · cases h2
  · cases h2
    have hv : ns.map (fun x => (s''[x]?).map Obj.parts) = vs.map some := by rw [hns]; exact hv
    exact tie_read ns s'' hal vs hv
  · rename_i i n
    simp only [Option.bind_eq_some_iff] at h2
    obtain ⟨o, _, h2⟩ := h2
    split at h2
    · cases h2; exact single i n rfl rfl rfl
    · cases h2
  · exact absurd hs (by simp [Safe])
  · exact absurd rfl (hf _)
  · cases h2

/-- A call that can be kept has a value. -/
theorem shows_some (f : Fn) (as : List Arg) (s s' : List Obj) (r : Out) (h : keep f as s = some (r, s'))
    (hs : Safe f as) (ha : Alive as s) : ∃ vs : List (List Nat), shows f as s = vs.map some := by
  obtain ⟨ns, ts, s1, s2, h1, h2, -⟩ := keep_parts f as s s' r h
  by_cases hf' : ∃ k, f = .accept (.value k)
  · obtain ⟨k, rfl⟩ := hf'; exact ⟨[[k]], rfl⟩
  have hf : ∀ k, f ≠ .accept (.value k) := fun k e => hf' ⟨k, e⟩
  clear hf'
  obtain ⟨hns, rfl, e1⟩ := bindAll_vars _ _ _ _ _ _ h1 (not_temp f hf as hs)
  subst e1
  have whole : ∃ vs : List (List Nat), (as.flatMap Arg.names).map (fun x => (s1[x]?).map Obj.parts) = vs.map some := by
    have : ∀ l : List Nat, (∀ n ∈ l, ∃ o, s1[n]? = some o) → ∃ vs : List (List Nat), l.map (fun x => (s1[x]?).map Obj.parts) = vs.map some := by
      intro l hl
      induction l with
      | nil => exact ⟨[], rfl⟩
      | cons n l ih =>
        obtain ⟨vs, hvs⟩ := ih fun m hm => hl m (List.mem_cons_of_mem _ hm)
        obtain ⟨o, ho⟩ := hl n (by simp)
        exact ⟨o.parts :: vs, by simp [ho, hvs]⟩
    refine this _ fun n hn => ?_
    obtain ⟨a, haa, hx⟩ := List.mem_flatMap.mp hn
    obtain ⟨o, ho, _⟩ := ha a haa n hx
    exact ⟨o, ho⟩
  have single : ∀ i n o, ns = [n] → s1[n]? = some o → i < o.parts.length →
      ∃ vs : List (List Nat), (as.flatMap Arg.names).map (fun x => (s1[x]?).bind fun o => (o.parts[i]?).map fun v => [v]) = vs.map some := by
    intro i n o e ho hi
    refine ⟨[[o.parts[i]]], ?_⟩
    rw [← hns, e]
    simp [ho, hi]
  unfold Fn.body at h2
  split at h2
  · exact whole
  · rename_i i n
    simp only [Option.bind_eq_some_iff] at h2
    obtain ⟨o, ho, h2⟩ := h2
    split at h2
    · rename_i hi; exact single i n o rfl ho hi
    · cases h2
  · exact whole
  · rename_i i n
    simp only [Option.bind_eq_some_iff] at h2
    obtain ⟨o, ho, h2⟩ := h2
    split at h2
    · rename_i hi; exact single i n o rfl ho hi
    · cases h2
  · exact absurd hs (by simp [Safe])
  · exact absurd rfl (hf _)
  · cases h2

theorem alive_lt {as : List Arg} {s : List Obj} (ha : Alive as s) {a : Arg} (haa : a ∈ as) {x : Nat} (hx : x ∈ a.names) : x < s.length := by
  obtain ⟨o, ho, _⟩ := ha a haa x hx
  exact (List.getElem?_eq_some_iff.mp ho).1

/-- What is shown and what is alive depend on the variables only. -/
theorem shows_congr (f : Fn) (as : List Arg) (s s' : List Obj) (h : ∀ a ∈ as, ∀ x ∈ a.names, s'[x]? = s[x]?) :
    shows f as s' = shows f as s ∧ (Alive as s → Alive as s') := by
  constructor
  · unfold shows
    split
    · rfl
    all_goals
      apply List.map_congr_left
      intro x hx
      obtain ⟨a, haa, hx⟩ := List.mem_flatMap.mp hx
      rw [h a haa x hx]
  · intro ha a haa x hx
    obtain ⟨o, ho, hoa⟩ := ha a haa x hx
    exact ⟨o, by rw [h a haa x hx, ho], hoa⟩

/-- C126: a result kept in a variable can be read exactly if the call is one of those listed in `Safe`: `c_str` of a `String` variable,
`get_first`, …, `make_lpair`, `make_ltuple` of variables, `accept` of a variable with a visitor that returns its own member, and
`accept` with a visitor that returns a value. -/
theorem C126_kept_partial (f : Fn) (as : List Arg) (s s' : List Obj) (r : Out) (ha : Alive as s)
    (h : keep f as s = some (r, s')) : (∃ v, r.read s' = .ok v) ↔ Safe f as := by
  have hk := keep_get f as s s' r h
  constructor
  · intro hv
    apply Classical.byContradiction
    intro hs
    obtain ⟨ns, ts, s1, s2, h1, h2, rfl⟩ := keep_parts f as s s' r h
    by_cases hf : ∃ ps, f = .accept (.arg ps)
    · obtain ⟨ps, rfl⟩ := hf
      cases ns with
      | nil => cases h2
      | cons n l => cases l with
        | cons _ _ => cases h2
        | nil =>
          simp only [Fn.body, new, Option.some.injEq, Prod.mk.injEq] at h2
          obtain ⟨rfl, rfl⟩ := h2
          refine kept_dead _ _ s1.length (by simp) ?_ hv
          refine kills_dead ts _ s1.length ⟨ps, 0, false⟩ ?_ rfl
          rw [kill_get, if_pos rfl]; simp
    · obtain ⟨t, ht⟩ := bindAll_temp _ _ _ _ _ _ h1 (temp_of f (fun ps e => hf ⟨ps, e⟩) as hs)
      obtain ⟨-, hts, hns, -⟩ := bindAll_spec _ _ _ _ _ _ h1
      have htn := (hts t ht).2.1
      have hown : ∀ v, f = .accept v → ∃ i, v = .own i := by
        intro v e
        subst e
        cases v with
        | own i => exact ⟨i, rfl⟩
        | arg ps => exact absurd ⟨ps, rfl⟩ hf
        | value k => exact absurd trivial hs
      obtain ⟨ho, e2, l, rfl⟩ := body_objs f hown ns s1 s2 r h2
      subst e2
      refine kept_dead l _ t ?_ (kills_mem ts s2 t ht (hns t htn).1) hv
      rw [show l.map Ref.obj = ns from ho]; exact htn
  · intro hs
    obtain ⟨vs, hvs⟩ := shows_some f as s s' r h hs ha
    have hsame : ∀ a ∈ as, ∀ x ∈ a.names, s'[x]? = s[x]? := fun a haa x hx => hk.2 x (alive_lt ha haa hx)
    obtain ⟨e1, e2⟩ := shows_congr f as s s' hsame
    exact ⟨vs, kept_read f as s s' s' r h hs (e2 ha) (fun _ a haa x hx => by rw [hsame a haa x hx]) vs (by rw [e1, hvs])⟩

/-- C126: such a result shows what the variables had at the call, for as long as none of them is modified or goes out of scope. -/
theorem C126_later (f : Fn) (as : List Arg) (s s' s'' : List Obj) (r : Out) (os : List Op) (ha : Alive as s)
    (h : keep f as s = some (r, s')) (hs : Safe f as) (hr : run os s' = some s'')
    (ho : ∀ o ∈ os, ∀ a ∈ as, ∀ x ∈ a.names, o ≠ .leave x ∧ ∀ ps, o ≠ .assign x ps) :
    ∃ vs : List (List Nat), shows f as s = vs.map some ∧ r.read s'' = .ok vs := by
  obtain ⟨vs, hvs⟩ := shows_some f as s s' r h hs ha
  have hk := keep_get f as s s' r h
  have hg := run_get os s' s'' hr
  have hsame : ∀ a ∈ as, ∀ x ∈ a.names, s''[x]? = s[x]? := by
    intro a haa x hx
    have hlt := alive_lt ha haa hx
    rw [hg.2 x (by omega) fun o hoo => ho o hoo a haa x hx, hk.2 x hlt]
  obtain ⟨e1, e2⟩ := shows_congr f as s s'' hsame
  exact ⟨vs, hvs, kept_read f as s s' s'' r h hs (e2 ha) (fun _ a haa x hx => by rw [hsame a haa x hx]) vs (by rw [e1, hvs])⟩

/-- C126: a reference, but not the pointer from `c_str`, shows the present parts of the variables, whatever has been assigned to them. -/
theorem C126_follows (f : Fn) (as : List Arg) (s s' s'' : List Obj) (r : Out) (os : List Op)
    (h : keep f as s = some (r, s')) (hs : Safe f as) (hf : f ≠ .cStr) (_hr : run os s' = some s'') (ha : Alive as s'')
    (vs : List (List Nat)) (hv : shows f as s'' = vs.map some) : r.read s'' = .ok vs :=
  kept_read f as s s' s'' r h hs ha (fun e => absurd e hf) vs hv

/-- The pointer or reference is to each of the variables. -/
theorem safe_objs (f : Fn) (as : List Arg) (s s' : List Obj) (r : Out) (h : keep f as s = some (r, s')) (hs : Safe f as)
    (hf : ∀ k, f ≠ .accept (.value k)) : ∃ l, r = .refs l ∧ l.map Ref.obj = as.flatMap Arg.names := by
  obtain ⟨ns, ts, s1, s2, h1, h2, -⟩ := keep_parts f as s s' r h
  obtain ⟨hns, -, -⟩ := bindAll_vars _ _ _ _ _ _ h1 (not_temp f hf as hs)
  have hown : ∀ v, f = .accept v → ∃ i, v = .own i := by
    intro v e
    subst e
    cases v with
    | own i => exact ⟨i, rfl⟩
    | arg ps => exact absurd hs (by simp [Safe])
    | value k => exact absurd rfl (hf k)
  obtain ⟨ho, -, l, rfl⟩ := body_objs f hown ns s1 s2 r h2
  exact ⟨l, rfl, by rw [← hns]; exact ho⟩

/-- C126: once a variable that is referred to is out of scope, the result cannot be read. -/
theorem C126_scope (f : Fn) (as : List Arg) (s s' s'' : List Obj) (r : Out) (os₁ os₂ : List Op) (a : Arg) (x : Nat) (ha : Alive as s)
    (h : keep f as s = some (r, s')) (hs : Safe f as) (hf : ∀ k, f ≠ .accept (.value k)) (haa : a ∈ as) (hx : x ∈ a.names)
    (hr : run (os₁ ++ .leave x :: os₂) s' = some s'') : ¬ ∃ v, r.read s'' = .ok v := by
  have app : ∀ (l₁ l₂ : List Op) (t : List Obj), run (l₁ ++ l₂) t = (run l₁ t).bind (run l₂) := by
    intro l₁ l₂ t
    induction l₁ generalizing t with
    | nil => rfl
    | cons o l₁ ih =>
      simp only [List.cons_append, run]
      cases step o t with
      | none => rfl
      | some t' => exact ih t'
  rw [app, Option.bind_eq_some_iff] at hr
  obtain ⟨t, ht, hr⟩ := hr
  simp only [run, step, Option.bind_some] at hr
  obtain ⟨l, rfl, hl⟩ := safe_objs f as s s' r h hs hf
  have hlt := alive_lt ha haa hx
  have h1 := (keep_get f as s s' _ h).1
  have h2 := (run_get os₁ s' t ht).1
  have hxt : x < t.length := by omega
  refine kept_dead l s'' x (by rw [hl]; exact List.mem_flatMap.mpr ⟨a, haa, hx⟩) ?_
  refine run_dead os₂ _ s'' hr x { t[x] with alive := false } ?_ rfl
  rw [kill_get, if_pos rfl, List.getElem?_eq_getElem hxt]; rfl

/-- C126: in the full-expression of the call, every result can be read, except that of `accept` with a visitor that returns its
argument. -/
theorem C126_during (f : Fn) (as : List Arg) (s s' : List Obj) (r : Out) (ts : List Nat) (ha : Alive as s)
    (h : call f as s = some (r, ts, s')) : (∃ v, r.read s' = .ok v) ↔ ∀ ps, f ≠ .accept (.arg ps) := by
  simp only [call, Option.bind_eq_some_iff, Option.map_eq_some_iff, Prod.exists, Prod.mk.injEq] at h
  obtain ⟨ns, ts', s1, h1, r', s2, h2, rfl, rfl, rfl⟩ := h
  obtain ⟨hp, hts, hns, -⟩ := bindAll_spec _ _ _ _ _ _ h1
  have hal : ∀ n ∈ ns, ∃ o, s1[n]? = some o ∧ o.alive = true := by
    intro n hn
    rcases (hns n hn).2 with ht | ⟨hlt, a, haa, hx⟩
    · obtain ⟨ps, e⟩ := (hts n ht).2.2
      exact ⟨_, e, rfl⟩
    · obtain ⟨o, ho, hoa⟩ := ha a haa n hx
      exact ⟨o, by rw [prefix_get hp hlt, ho], hoa⟩
  unfold Fn.body at h2
  split at h2
  · rename_i n
    simp only [Option.map_eq_some_iff, Prod.mk.injEq] at h2
    obtain ⟨o, ho, rfl, rfl⟩ := h2
    obtain ⟨o', ho', hoa⟩ := hal n (by simp)
    obtain rfl : o = o' := by rw [ho] at ho'; exact Option.some.inj ho'
    simp [Out.read, readAll, Ref.read, ho, hoa, Res.bind]
  · rename_i i n
    simp only [Option.bind_eq_some_iff] at h2
    obtain ⟨o, ho, h2⟩ := h2
    split at h2
    · rename_i hi
      cases h2
      obtain ⟨o', ho', hoa⟩ := hal n (by simp)
      obtain rfl : o = o' := by rw [ho] at ho'; exact Option.some.inj ho'
      simp [Out.read, readAll, Ref.read, ho, hoa, hi, Res.bind]
    · cases h2
  · cases h2
    rw [read_refs]
    simp only [ne_eq, reduceCtorEq, not_false_eq_true, implies_true, iff_true, List.mem_map]
    rintro _ ⟨n, hn, rfl⟩
    obtain ⟨o, ho, hoa⟩ := hal n hn
    simp [Ref.read, ho, hoa]
  · rename_i i n
    simp only [Option.bind_eq_some_iff] at h2
    obtain ⟨o, ho, h2⟩ := h2
    split at h2
    · rename_i hi
      cases h2
      obtain ⟨o', ho', hoa⟩ := hal n (by simp)
      obtain rfl : o = o' := by rw [ho] at ho'; exact Option.some.inj ho'
      simp [Out.read, readAll, Ref.read, ho, hoa, hi, Res.bind]
    · cases h2
  · rename_i ps _
    simp only [new, Option.some.injEq, Prod.mk.injEq] at h2
    obtain ⟨rfl, rfl⟩ := h2
    constructor
    · intro hv
      refine absurd hv (kept_dead _ _ s1.length (by simp) ⟨⟨ps, 0, false⟩, ?_, rfl⟩)
      rw [kill_get, if_pos rfl]; simp
    · intro hh; exact absurd rfl (hh ps)
  · cases h2; simp [Out.read]
  · cases h2

/-- Specification: what an argument has. -/
def Arg.value (s : List Obj) : Arg → Option (List Nat)
  | .var x | .other x | .moved x => (s[x]?).map Obj.parts
  | .tmp ps _ => some ps

/-- Binding keeps the value; only `T&` refuses arguments. -/
theorem bind_value (p : Param) (hp : p ≠ .lvalue) (a : Arg) (s : List Obj) (ps : List Nat) (h : a.value s = some ps)
    (ha : Alive [a] s) : ∃ n t s' g, bind p a s = some (n, t, s') ∧ s'[n]? = some ⟨ps, g, true⟩ := by
  have here : ∀ x, a.names = [x] → (s[x]?).map Obj.parts = some ps → x < s.length ∧ ∃ g, s[x]? = some ⟨ps, g, true⟩ := by
    intro x hn hx
    obtain ⟨⟨qs, g, al⟩, ho, hal⟩ := ha a (by simp) x (by simp [hn])
    rw [ho] at hx
    simp only [Option.map_some, Option.some.injEq] at hx hal
    exact ⟨(List.getElem?_eq_some_iff.mp ho).1, g, by rw [ho, hx, hal]⟩
  have new' : (s ++ [Obj.mk ps 0 true])[s.length]? = some ⟨ps, 0, true⟩ := by simp
  cases a with
  | var x =>
    obtain ⟨hl, g, hg⟩ := here x rfl h
    exact ⟨x, false, s, g, by cases p <;> simp [bind, hl], hg⟩
  | moved x =>
    obtain ⟨hl, g, hg⟩ := here x rfl h
    exact ⟨x, false, s, g, by cases p <;> first | exact absurd rfl hp | simp [bind, hl], hg⟩
  | other x =>
    obtain ⟨hl, g, hg⟩ := here x rfl h
    by_cases e : p = .fixed
    · subst e
      exact ⟨s.length, true, _, 0, by simp [bind, new, hg], new'⟩
    · exact ⟨x, false, s, g, by cases p <;> first | exact absurd rfl e | simp [bind, hl], hg⟩
  | tmp qs c =>
    simp only [Arg.value, Option.some.injEq] at h
    subst h
    exact ⟨s.length, true, _, 0, by cases p <;> cases c <;> first | rfl | exact absurd rfl hp, new'⟩

/-- C126: which calls with one argument compile, and what is read in the full-expression. -/
theorem C126_calls (a : Arg) (s : List Obj) (ps : List Nat) (h : a.value s = some ps) (ha : Alive [a] s) (i k : Nat) (qs : List Nat) :
    (∃ r ts s', call .cStr [a] s = some (r, ts, s') ∧ r.read s' = .ok [ps]) ∧
    (i < ps.length → ∃ r ts s', call (.get i) [a] s = some (r, ts, s') ∧ r.read s' = .ok [[ps.getD i 0]]) ∧
    (ps.length ≤ i → call (.get i) [a] s = none) ∧
    (i < ps.length → ∃ r ts s', call (.accept (.own i)) [a] s = some (r, ts, s') ∧ r.read s' = .ok [[ps.getD i 0]]) ∧
    (∃ r ts s', call (.accept (.value k)) [a] s = some (r, ts, s') ∧ r.read s' = .ok [[k]]) ∧
    (call (.accept (.arg qs)) [a] s).isSome := by
  obtain ⟨n1, t1, s1, g1, b1, e1⟩ := bind_value .fixed (by simp) a s ps h ha
  obtain ⟨n2, t2, s2, g2, b2, e2⟩ := bind_value .forward (by simp) a s ps h ha
  obtain ⟨n3, t3, s3, g3, b3, e3⟩ := bind_value .deduced (by simp) a s ps h ha
  refine ⟨?_, fun hi => ?_, fun hi => ?_, fun hi => ?_, ?_, ?_⟩
  · refine ⟨.refs [⟨n1, none, some g1⟩], if t1 then [n1] else [], s1, ?_, ?_⟩
    · simp [call, bindAll, Fn.param, b1, Fn.body, e1]
    · simp [Out.read, readAll, Ref.read, e1, Res.bind]
  · refine ⟨.refs [⟨n2, some i, none⟩], if t2 then [n2] else [], s2, ?_, ?_⟩
    · simp [call, bindAll, Fn.param, b2, Fn.body, e2, hi]
    · simp [Out.read, readAll, Ref.read, e2, hi, Res.bind]
  · have : ¬ i < ps.length := by omega
    simp [call, bindAll, Fn.param, b2, Fn.body, e2, this]
  · refine ⟨.refs [⟨n3, some i, none⟩], if t3 then [n3] else [], s3, ?_, ?_⟩
    · simp [call, bindAll, Fn.param, b3, Fn.body, e3, hi]
    · simp [Out.read, readAll, Ref.read, e3, hi, Res.bind]
  · exact ⟨.val k, if t3 then [n3] else [], s3, by simp [call, bindAll, Fn.param, b3, Fn.body], rfl⟩
  · simp [call, bindAll, Fn.param, b3, Fn.body, new]

/-- Not vacuous: a `std::string` of two characters. -/
example : Arg.value [⟨[1, 2], 0, true⟩] (.other 0) = some [1, 2] ∧
    ((call .cStr [.other 0] [⟨[1, 2], 0, true⟩]).map fun (r, _, s') => r.read s') = some (.ok [[1, 2]]) := by decide +kernel

/-- C126: the pointer from `c_str` cannot be used after the string has been modified. -/
theorem C126_modified (x : Nat) (ps : List Nat) (s s' s'' : List Obj) (r : Out) (ha : Alive [.var x] s)
    (h : keep .cStr [.var x] s = some (r, s')) (hr : run [.assign x ps] s' = some s'') : r.read s'' = .ub .dangling := by
  obtain ⟨o, ho, hoa⟩ := ha (.var x) (by simp) x (by simp [Arg.names])
  have hlt : x < s.length := (List.getElem?_eq_some_iff.mp ho).1
  obtain ⟨ns, ts, s1, s2, h1, h2, rfl⟩ := keep_parts _ _ s s' r h
  obtain ⟨rfl, rfl, rfl⟩ := bindAll_vars _ _ _ _ _ _ h1 (by simp [Arg.temp])
  simp only [List.flatMap_cons, Arg.names, List.flatMap_nil, List.append_nil, Fn.body, ho, Option.map_some, Option.some.injEq,
    Prod.mk.injEq] at h2
  obtain ⟨rfl, rfl⟩ := h2
  simp only [run, step, Option.bind_some, Option.some.injEq, List.foldl_nil] at hr
  subst hr
  simp [Out.read, readAll, Ref.read, ho, Res.bind]

/-- Not vacuous: a pair of references follows its variables, the pointer is good while its string is unchanged, and a reference to a part
is lost with its variable. -/
example : ((run [.declare [1, 2], .declare [3]] []).bind fun s => (keep .tie [.var 0, .other 1] s).bind fun (r, s') =>
      (run [.assign 1 [9], .declare [4], .keep .cStr [.tmp [1] false]] s').map r.read) = some (.ok [[1, 2], [9]]) ∧
    ((run [.declare [1, 2], .declare [3]] []).bind fun s => (keep .cStr [.var 0] s).bind fun (r, s') =>
      (run [.assign 1 [9]] s').map r.read) = some (.ok [[1, 2]]) ∧
    ((run [.declare [1, 2], .declare [3]] []).bind fun s => (keep (.get 1) [.moved 0] s).bind fun (r, s') =>
      (run [] s').map r.read) = some (.ok [[2]]) ∧
    ((run [.declare [1, 2], .declare [3]] []).bind fun s => (keep (.accept (.own 1)) [.var 0] s).bind fun (r, s') =>
      (run [.leave 0] s').map r.read) = some (.ub .dangling) ∧
    ((call (.get 0) [.tmp [6] false] []).map fun (r, _, s') => r.read s') = some (.ok [[6]]) := by decide +kernel

/-- C126, false: `const char* p = c_str(s);` with `std::string s`, and with a literal or a value for `s`, dangles. -/
theorem C126_cstr_refuted :
    (∃ r s', keep .cStr [.other 0] [⟨[104, 105], 0, true⟩] = some (r, s') ∧ r.read s' = .ub .dangling) ∧
    ∃ r s', keep .cStr [.tmp [104, 105] false] [] = some (r, s') ∧ r.read s' = .ub .dangling := by
  exact ⟨⟨_, _, rfl, by decide +kernel⟩, ⟨_, _, rfl, by decide +kernel⟩⟩

/-- C126, false: `auto&& x = get_first(f());` dangles. -/
theorem C126_get_refuted : ∃ r s', keep (.get 0) [.tmp [1, 2] false] [] = some (r, s') ∧ r.read s' = .ub .dangling :=
  ⟨_, _, rfl, by decide +kernel⟩

/-- C126, false: `make_lpair` and `make_ltuple` take values of const class types as well, and the result dangles; they refuse other
values and moved variables. -/
theorem C126_tie_refuted :
    (∃ r s', keep .tie [.var 0, .tmp [1] true] [⟨[5], 0, true⟩] = some (r, s') ∧ r.read s' = .ub .dangling) ∧
    ∀ as s, (∃ ps, .tmp ps false ∈ as) ∨ (∃ x, .moved x ∈ as) → keep .tie as s = none := by
  refine ⟨⟨_, _, rfl, by decide +kernel⟩, fun as s h => ?_⟩
  have hb : bindAll .lvalue as s = none := by
    induction as generalizing s with
    | nil => simp at h
    | cons a as ih =>
      simp only [bindAll]
      cases hb : bind .lvalue a s with
      | none => rfl
      | some w =>
        obtain ⟨n, t, s1⟩ := w
        rw [Option.bind_some, ih s1]
        · rfl
        · rcases h with ⟨ps, h⟩ | ⟨x, h⟩
          · rcases List.mem_cons.mp h with rfl | h
            · cases hb
            · exact .inl ⟨ps, h⟩
          · rcases List.mem_cons.mp h with rfl | h
            · cases hb
            · exact .inr ⟨x, h⟩
  simp [keep, call, Fn.param, hb]

/-- C126, false: with a visitor that returns a reference to its argument, the result of `accept` dangles even in the full-expression
of the call. -/
theorem C126_accept_refuted : ∃ r ts s', call (.accept (.arg [7])) [.var 0] [⟨[], 0, true⟩] = some (r, ts, s') ∧
    r.read s' = .ub .dangling := ⟨_, _, _, rfl, by decide +kernel⟩

end Helper.Lifetime
