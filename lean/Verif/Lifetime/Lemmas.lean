import Verif.Lifetime.Model
set_option linter.unusedSectionVars false
namespace Helper.Lifetime

/-- The variables an argument names. -/
def Arg.names : Arg → List Nat
  | .var x | .other x | .moved x => [x]
  | .tmp _ _ => []

theorem kill_length (n : Nat) (s : List Obj) : (kill n s).length = s.length := by simp [kill]

theorem kill_get (n m : Nat) (s : List Obj) :
    (kill n s)[m]? = if n = m then s[m]?.map fun o => { o with alive := false } else s[m]? := by
  simp only [kill, List.getElem?_modify]
  by_cases h : n = m <;> simp [h]

theorem kills_length (ts : List Nat) (s : List Obj) : (ts.foldl (fun s n => kill n s) s).length = s.length := by
  induction ts generalizing s with
  | nil => rfl
  | cons t ts ih => simp only [List.foldl_cons]; rw [ih, kill_length]

theorem kills_get_not (ts : List Nat) (s : List Obj) (m : Nat) (h : m ∉ ts) : (ts.foldl (fun s n => kill n s) s)[m]? = s[m]? := by
  induction ts generalizing s with
  | nil => rfl
  | cons t ts ih =>
    simp only [List.mem_cons, not_or] at h
    simp only [List.foldl_cons]
    rw [ih _ h.2, kill_get, if_neg (fun e => h.1 e.symm)]

theorem kills_dead (ts : List Nat) (s : List Obj) (m : Nat) (o : Obj) (hs : s[m]? = some o) (ho : o.alive = false) :
    ∃ o', (ts.foldl (fun s n => kill n s) s)[m]? = some o' ∧ o'.alive = false := by
  induction ts generalizing s o with
  | nil => exact ⟨o, hs, ho⟩
  | cons t ts ih =>
    simp only [List.foldl_cons]
    by_cases e : t = m
    · exact ih _ { o with alive := false } (by rw [kill_get, if_pos e, hs]; rfl) rfl
    · exact ih _ o (by rw [kill_get, if_neg e, hs]) ho

theorem kills_mem (ts : List Nat) (s : List Obj) (m : Nat) (h : m ∈ ts) (hm : m < s.length) :
    ∃ o', (ts.foldl (fun s n => kill n s) s)[m]? = some o' ∧ o'.alive = false := by
  induction ts generalizing s with
  | nil => cases h
  | cons t ts ih =>
    simp only [List.foldl_cons]
    by_cases e : t = m
    · refine kills_dead ts _ m { s[m] with alive := false } ?_ rfl
      rw [kill_get, if_pos e, List.getElem?_eq_getElem hm]; rfl
    · rcases List.mem_cons.mp h with h | h
      · exact absurd h.symm e
      · exact ih _ h (by rw [kill_length]; exact hm)

/-- Binding adds objects at the end. -/
theorem bind_spec (p : Param) (a : Arg) (s s' : List Obj) (n : Nat) (t : Bool) (h : bind p a s = some (n, t, s')) :
    (t = false ∧ s' = s ∧ n < s.length ∧ a.names = [n]) ∨ (t = true ∧ n = s.length ∧ ∃ ps, s' = s ++ [⟨ps, 0, true⟩]) := by
  cases a with
  | var x =>
    have h : (if x < s.length then some (x, false, s) else none) = some (n, t, s') := by cases p <;> exact h
    split at h
    · rename_i hx; cases h; exact .inl ⟨rfl, rfl, hx, rfl⟩
    · cases h
  | other x =>
    by_cases e : p = .fixed
    · subst e
      simp only [bind, new, Option.map_eq_some_iff, Prod.mk.injEq] at h
      obtain ⟨o, _, rfl, rfl, rfl⟩ := h
      exact .inr ⟨rfl, rfl, _, rfl⟩
    · have h : (if x < s.length then some (x, false, s) else none) = some (n, t, s') := by
        cases p <;> first | exact h | exact absurd rfl e
      split at h
      · rename_i hx; cases h; exact .inl ⟨rfl, rfl, hx, rfl⟩
      · cases h
  | moved x =>
    by_cases e : p = .lvalue
    · subst e; cases h
    · have h : (if x < s.length then some (x, false, s) else none) = some (n, t, s') := by
        cases p <;> first | exact h | exact absurd rfl e
      split at h
      · rename_i hx; cases h; exact .inl ⟨rfl, rfl, hx, rfl⟩
      · cases h
  | tmp ps c =>
    have h : some (s.length, true, s ++ [⟨ps, 0, true⟩]) = some (n, t, s') := by
      cases p <;> cases c <;> first | exact h | cases h
    cases h
    exact .inr ⟨rfl, rfl, ps, rfl⟩

/-- The arguments for which a parameter is bound to a temporary. -/
theorem bind_temp (p : Param) (a : Arg) (s s' : List Obj) (n : Nat) (t : Bool) (h : bind p a s = some (n, t, s')) :
    t = true ↔ (∃ ps c, a = .tmp ps c) ∨ (p = .fixed ∧ ∃ x, a = .other x) := by
  cases a with
  | tmp ps c =>
    have h : some (s.length, true, s ++ [⟨ps, 0, true⟩]) = some (n, t, s') := by
      cases p <;> cases c <;> first | exact h | cases h
    cases h; simp
  | other x =>
    cases p <;> simp only [bind, new, Option.map_eq_some_iff, Prod.mk.injEq] at h
    · obtain ⟨o, _, _, rfl, _⟩ := h; simp
    all_goals (split at h <;> first | (cases h; simp; done) | cases h)
  | var x => cases p <;> (simp only [bind] at h; split at h <;> first | (cases h; simp; done) | cases h)
  | moved x =>
    cases p <;> simp only [bind] at h
    all_goals first | cases h; done | (split at h <;> first | (cases h; simp; done) | cases h)

theorem prefix_get {s s' : List Obj} (h : s <+: s') {m : Nat} (hm : m < s.length) : s'[m]? = s[m]? := by
  obtain ⟨t, rfl⟩ := h
  rw [List.getElem?_append_left hm]

/-- What binding a list of arguments does. -/
theorem bindAll_spec (p : Param) (as : List Arg) (s s' : List Obj) (ns ts : List Nat) (h : bindAll p as s = some (ns, ts, s')) :
    s <+: s' ∧ (∀ t ∈ ts, s.length ≤ t ∧ t ∈ ns ∧ ∃ ps, s'[t]? = some ⟨ps, 0, true⟩) ∧
    (∀ n ∈ ns, n < s'.length ∧ (n ∈ ts ∨ (n < s.length ∧ ∃ a ∈ as, n ∈ a.names))) ∧ ns.length = as.length := by
  induction as generalizing s ns ts s' with
  | nil => cases h; exact ⟨List.prefix_rfl, by simp, by simp, rfl⟩
  | cons a as ih =>
    simp only [bindAll, Option.bind_eq_some_iff, Option.map_eq_some_iff, Prod.mk.injEq, Prod.exists] at h
    obtain ⟨n, t, s1, h1, ns', ts', s2, h2, rfl, rfl, rfl⟩ := h
    obtain ⟨ip, it, im, il⟩ := ih _ _ _ _ h2
    rcases bind_spec _ _ _ _ _ _ h1 with ⟨rfl, rfl, hn, hnames⟩ | ⟨rfl, rfl, ps, rfl⟩
    · have hl := ip.length_le
      refine ⟨ip, fun t ht => ?_, fun m hm => ?_, by simp [il]⟩
      · obtain ⟨x, y, z⟩ := it t (by simpa using ht)
        exact ⟨x, List.mem_cons_of_mem _ y, z⟩
      · rcases List.mem_cons.mp hm with rfl | hm
        · exact ⟨by omega, .inr ⟨hn, a, by simp, by simp [hnames]⟩⟩
        · obtain ⟨x, y⟩ := im m hm
          refine ⟨x, ?_⟩
          rcases y with y | ⟨y, b, hb, hc⟩
          · exact .inl (by simpa using y)
          · exact .inr ⟨y, b, List.mem_cons_of_mem _ hb, hc⟩
    · have hl := ip.length_le
      simp only [List.length_append, List.length_cons, List.length_nil] at hl
      refine ⟨(List.prefix_append _ _).trans ip, fun t ht => ?_, fun m hm => ?_, by simp [il]⟩
      · rcases List.mem_cons.mp (show t ∈ s.length :: ts' from ht) with rfl | ht
        · exact ⟨Nat.le_refl _, by simp, ps, by rw [prefix_get ip (by simp)]; simp⟩
        · obtain ⟨x, y, z⟩ := it t ht
          exact ⟨by simp at x; omega, List.mem_cons_of_mem _ y, z⟩
      · rcases List.mem_cons.mp hm with rfl | hm
        · exact ⟨by omega, .inl (by simp)⟩
        · obtain ⟨x, y⟩ := im m hm
          refine ⟨x, ?_⟩
          rcases y with y | ⟨y, b, hb, hc⟩
          · exact .inl (List.mem_cons_of_mem _ y)
          · by_cases e : m < s.length
            · exact .inr ⟨e, b, List.mem_cons_of_mem _ hb, hc⟩
            · have : m = s.length := by simp at y; omega
              exact .inl (by subst this; simp)

/-- The arguments for which a parameter is bound to a temporary. -/
def Arg.temp (p : Param) (a : Arg) : Prop := (∃ ps c, a = .tmp ps c) ∨ (p = .fixed ∧ ∃ x, a = .other x)

/-- Without temporaries, the parameters are bound to the variables. -/
theorem bindAll_vars (p : Param) (as : List Arg) (s s' : List Obj) (ns ts : List Nat) (h : bindAll p as s = some (ns, ts, s'))
    (hn : ∀ a ∈ as, ¬ a.temp p) : ns = as.flatMap Arg.names ∧ ts = [] ∧ s' = s := by
  induction as generalizing s ns ts s' with
  | nil => cases h; exact ⟨rfl, rfl, rfl⟩
  | cons a as ih =>
    simp only [bindAll, Option.bind_eq_some_iff, Option.map_eq_some_iff, Prod.mk.injEq, Prod.exists] at h
    obtain ⟨n, t, s1, h1, ns', ts', s2, h2, rfl, rfl, rfl⟩ := h
    have ht : t ≠ true := fun e => hn a (by simp) ((bind_temp _ _ _ _ _ _ h1).mp e)
    rcases bind_spec _ _ _ _ _ _ h1 with ⟨rfl, rfl, _, hnames⟩ | ⟨rfl, _⟩
    · obtain ⟨rfl, rfl, rfl⟩ := ih _ _ _ _ h2 fun a ha => hn a (List.mem_cons_of_mem _ ha)
      exact ⟨by simp [hnames], rfl, rfl⟩
    · exact absurd rfl ht

/-- An argument that needs a temporary gets one. -/
theorem bindAll_temp (p : Param) (as : List Arg) (s s' : List Obj) (ns ts : List Nat) (h : bindAll p as s = some (ns, ts, s'))
    (hn : ∃ a ∈ as, a.temp p) : ∃ t, t ∈ ts := by
  induction as generalizing s ns ts s' with
  | nil => obtain ⟨a, ha, _⟩ := hn; cases ha
  | cons a as ih =>
    simp only [bindAll, Option.bind_eq_some_iff, Option.map_eq_some_iff, Prod.mk.injEq, Prod.exists] at h
    obtain ⟨n, t, s1, h1, ns', ts', s2, h2, rfl, rfl, rfl⟩ := h
    cases t with
    | true => exact ⟨n, by simp⟩
    | false =>
      obtain ⟨b, hb, hbt⟩ := hn
      rcases List.mem_cons.mp hb with rfl | hb
      · exact absurd ((bind_temp _ _ _ _ _ _ h1).mpr hbt) (by simp)
      · simpa using ih _ _ _ _ h2 ⟨b, hb, hbt⟩

/-- The bodies change no object that was there. -/
theorem body_get (f : Fn) (ns : List Nat) (s s' : List Obj) (r : Out) (h : f.body ns s = some (r, s')) :
    s.length ≤ s'.length ∧ ∀ m < s.length, s'[m]? = s[m]? := by
  unfold Fn.body at h
  split at h
  · simp only [Option.map_eq_some_iff, Prod.mk.injEq] at h
    obtain ⟨_, _, _, rfl⟩ := h; exact ⟨Nat.le_refl _, fun _ _ => rfl⟩
  · simp only [Option.bind_eq_some_iff] at h
    obtain ⟨o, _, h⟩ := h
    split at h
    · cases h; exact ⟨Nat.le_refl _, fun _ _ => rfl⟩
    · cases h
  · cases h; exact ⟨Nat.le_refl _, fun _ _ => rfl⟩
  · simp only [Option.bind_eq_some_iff] at h
    obtain ⟨o, _, h⟩ := h
    split at h
    · cases h; exact ⟨Nat.le_refl _, fun _ _ => rfl⟩
    · cases h
  · simp only [new, Option.some.injEq, Prod.mk.injEq] at h
    obtain ⟨_, rfl⟩ := h
    refine ⟨by rw [kill_length]; simp, fun m hm => ?_⟩
    rw [kill_get, if_neg (by omega), List.getElem?_append_left hm]
  · cases h; exact ⟨Nat.le_refl _, fun _ _ => rfl⟩
  · cases h

/-- The parts of a call that is kept. -/
theorem keep_parts (f : Fn) (as : List Arg) (s s' : List Obj) (r : Out) (h : keep f as s = some (r, s')) :
    ∃ ns ts s1 s2, bindAll f.param as s = some (ns, ts, s1) ∧ f.body ns s1 = some (r, s2) ∧
      s' = ts.foldl (fun s n => kill n s) s2 := by
  simp only [keep, call, Option.map_eq_some_iff, Option.bind_eq_some_iff, Prod.exists, Prod.mk.injEq] at h
  obtain ⟨r', ts, s2, ⟨ns, ts', s1, h1, r'', s2', h2, rfl, rfl, rfl⟩, rfl, rfl⟩ := h
  exact ⟨ns, ts', s1, s2', h1, h2, rfl⟩

/-- Calls change no object that was there. -/
theorem keep_get (f : Fn) (as : List Arg) (s s' : List Obj) (r : Out) (h : keep f as s = some (r, s')) :
    s.length ≤ s'.length ∧ ∀ m < s.length, s'[m]? = s[m]? := by
  obtain ⟨ns, ts, s1, s2, h1, h2, rfl⟩ := keep_parts f as s s' r h
  obtain ⟨hp, ht, -, -⟩ := bindAll_spec _ _ _ _ _ _ h1
  obtain ⟨hl, hg⟩ := body_get _ _ _ _ _ h2
  have := hp.length_le
  refine ⟨by rw [kills_length]; omega, fun m hm => ?_⟩
  rw [kills_get_not _ _ _ (fun hmt => by have := (ht m hmt).1; omega), hg m (by omega), prefix_get hp hm]

/-- A step leaves alone the objects it does not name. -/
theorem step_get (o : Op) (s s' : List Obj) (h : step o s = some s') :
    s.length ≤ s'.length ∧ ∀ m < s.length, o ≠ .leave m → (∀ ps, o ≠ .assign m ps) → s'[m]? = s[m]? := by
  cases o with
  | declare ps =>
    cases h
    refine ⟨by simp [new], fun m hm _ _ => ?_⟩
    simp only [new]; rw [List.getElem?_append_left hm]
  | leave x =>
    cases h
    refine ⟨by rw [kill_length]; exact Nat.le_refl _, fun m _ hl _ => ?_⟩
    rw [kill_get, if_neg (fun e => hl (by rw [e]))]
  | assign x ps =>
    cases h
    refine ⟨by simp, fun m _ _ ha => ?_⟩
    have e : x ≠ m := fun e => ha ps (by rw [e])
    simp [e]
  | keep f as =>
    simp only [step, Option.map_eq_some_iff, Prod.exists, exists_eq_right] at h
    obtain ⟨r, h⟩ := h
    obtain ⟨hl, hg⟩ := keep_get _ _ _ _ _ h
    exact ⟨hl, fun m hm _ _ => hg m hm⟩

theorem run_get (os : List Op) (s s' : List Obj) (h : run os s = some s') :
    s.length ≤ s'.length ∧ ∀ m < s.length, (∀ o ∈ os, o ≠ .leave m ∧ ∀ ps, o ≠ .assign m ps) → s'[m]? = s[m]? := by
  induction os generalizing s with
  | nil => cases h; exact ⟨Nat.le_refl _, fun _ _ _ => rfl⟩
  | cons o os ih =>
    simp only [run, Option.bind_eq_some_iff] at h
    obtain ⟨s1, h1, h2⟩ := h
    obtain ⟨l1, g1⟩ := step_get _ _ _ h1
    obtain ⟨l2, g2⟩ := ih _ h2
    refine ⟨by omega, fun m hm hn => ?_⟩
    rw [g2 m (by omega) fun o ho => hn o (List.mem_cons_of_mem _ ho),
      g1 m hm (hn o (by simp)).1 (hn o (by simp)).2]

/-- Objects do not come back to life. -/
theorem run_dead (os : List Op) (s s' : List Obj) (h : run os s = some s') (m : Nat) (o : Obj) (hm : s[m]? = some o)
    (ho : o.alive = false) : ∃ o', s'[m]? = some o' ∧ o'.alive = false := by
  induction os generalizing s o with
  | nil => cases h; exact ⟨o, hm, ho⟩
  | cons op os ih =>
    simp only [run, Option.bind_eq_some_iff] at h
    obtain ⟨s1, h1, h2⟩ := h
    have hlt : m < s.length := (List.getElem?_eq_some_iff.mp hm).1
    cases op with
    | leave x =>
      by_cases e : x = m
      · cases h1
        exact ih _ h2 { o with alive := false } (by rw [kill_get, if_pos e, hm]; rfl) rfl
      · exact ih _ h2 o (by rw [(step_get _ _ _ h1).2 m hlt (by simpa using e) (by simp), hm]) ho
    | assign x ps =>
      by_cases e : x = m
      · cases h1
        subst e
        exact ih _ h2 { o with parts := ps, gen := o.gen + 1 } (by simp [List.getElem?_modify_eq, hm]) ho
      · exact ih _ h2 o (by rw [(step_get _ _ _ h1).2 m hlt (by simp) (by simp [e]), hm]) ho
    | declare ps => exact ih _ h2 o (by rw [(step_get _ _ _ h1).2 m hlt (by simp) (by simp), hm]) ho
    | keep f as => exact ih _ h2 o (by rw [(step_get _ _ _ h1).2 m hlt (by simp) (by simp), hm]) ho

theorem read_refs (l : List Ref) (s : List Obj) :
    (∃ v, (Out.refs l).read s = .ok v) ↔ ∀ r ∈ l, ∃ v, r.read s = .ok v := by
  induction l with
  | nil => simp [Out.read, readAll]
  | cons r l ih =>
    simp only [Out.read, readAll, List.forall_mem_cons] at ih ⊢
    rw [← ih]
    cases hr : r.read s <;> cases hl : readAll l s <;> simp [Res.bind]

theorem read_dead (r : Ref) (s : List Obj) (o : Obj) (h : s[r.obj]? = some o) (ho : o.alive = false) : r.read s = .ub .dangling := by
  simp [Ref.read, h, ho]

end Helper.Lifetime
