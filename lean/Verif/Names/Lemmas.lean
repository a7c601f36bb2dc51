import Verif.Names.Spec
/-!
# Lemmas on names
-/
set_option linter.unusedSectionVars false
namespace Helper.Names

theorem lookup_skip {β : Type} {x y : Name} (c : β) (l : List (Name × β)) (h : x ≠ y) : ((x, c) :: l).lookup y = l.lookup y := by
  have : (y == x) = false := by simpa using fun e => h e.symm
  simp [List.lookup, this]

theorem lookup_self {β : Type} (x : Name) (c : β) (l : List (Name × β)) : ((x, c) :: l).lookup x = some c := by
  simp [List.lookup]

theorem Ex.eval_skip {x : Name} {c : Cell} {env : Env} : ∀ {e : Ex}, x ∉ e.names → e.eval ((x, c) :: env) = e.eval env
  | .lit _, _ => rfl
  | .var y, h => by
    have : x ≠ y := by simpa [Ex.names] using h
    simp only [Ex.eval, lookup_skip c env this]
  | .op f a b, h => by
    simp only [Ex.names, List.mem_append, not_or] at h
    simp only [Ex.eval, Ex.eval_skip h.1, Ex.eval_skip h.2]
  | .and_ a b, h => by
    simp only [Ex.names, List.mem_append, not_or] at h
    simp only [Ex.eval, Ex.eval_skip h.1, Ex.eval_skip h.2]
  | .call1 f a, h => by
    simp only [Ex.names, List.mem_cons, not_or] at h
    simp only [Ex.eval, lookup_skip c env h.1, Ex.eval_skip h.2]
  | .call2 f a b, h => by
    simp only [Ex.names, List.cons_append, List.mem_cons, List.mem_append, not_or] at h
    simp only [Ex.eval, lookup_skip c env h.1, Ex.eval_skip h.2.1, Ex.eval_skip h.2.2]

theorem Ex.ok_skip {x : Name} {k : Kind} {Γ : Ctx} : ∀ {e : Ex}, x ∉ e.names → e.ok ((x, k) :: Γ) = e.ok Γ
  | .lit _, _ => rfl
  | .var y, h => by
    have : x ≠ y := by simpa [Ex.names] using h
    simp only [Ex.ok, lookup_skip k Γ this]
  | .op f a b, h => by
    simp only [Ex.names, List.mem_append, not_or] at h
    simp only [Ex.ok, Ex.ok_skip h.1, Ex.ok_skip h.2]
  | .and_ a b, h => by
    simp only [Ex.names, List.mem_append, not_or] at h
    simp only [Ex.ok, Ex.ok_skip h.1, Ex.ok_skip h.2]
  | .call1 f a, h => by
    simp only [Ex.names, List.mem_cons, not_or] at h
    simp only [Ex.ok, lookup_skip k Γ h.1, Ex.ok_skip h.2]
  | .call2 f a b, h => by
    simp only [Ex.names, List.cons_append, List.mem_cons, List.mem_append, not_or] at h
    simp only [Ex.ok, lookup_skip k Γ h.1, Ex.ok_skip h.2.1, Ex.ok_skip h.2.2]

theorem Piece.text_skip {x : Name} {c : Cell} {env : Env} : ∀ {p : Piece}, x ∉ p.names → p.text ((x, c) :: env) = p.text env
  | .lit _, _ => rfl
  | .ex e, h => by simp only [Piece.text, Ex.eval_skip (e := e) h]
  | .str y, h => by
    have : x ≠ y := by simpa [Piece.names] using h
    simp only [Piece.text, lookup_skip c env this]

theorem Piece.ok_skip {x : Name} {k : Kind} {Γ : Ctx} : ∀ {p : Piece}, x ∉ p.names → p.ok ((x, k) :: Γ) = p.ok Γ
  | .lit _, _ => rfl
  | .ex e, h => by simp only [Piece.ok, Ex.ok_skip (e := e) h]
  | .str y, h => by
    have : x ≠ y := by simpa [Piece.names] using h
    simp only [Piece.ok, lookup_skip k Γ this]

theorem Piece.ok_lit (t : String) (Γ : Ctx) : (Piece.lit t).ok Γ = true := rfl

theorem Piece.ok_str (x : Name) (Γ : Ctx) : (Piece.str x).ok Γ = (Γ.lookup x == some .stream) := rfl

theorem Piece.ok_ex (e : Ex) (Γ : Ctx) : (Piece.ex e).ok Γ = e.ok Γ := rfl

theorem msgNames_cons (p : Piece) (m : List Piece) : msgNames (p :: m) = p.names ++ msgNames m := rfl

theorem msgNames_append (m n : List Piece) : msgNames (m ++ n) = msgNames m ++ msgNames n := List.flatMap_append ..

theorem texts_skip {x : Name} {c : Cell} {env : Env} : ∀ {m : List Piece}, x ∉ msgNames m → texts ((x, c) :: env) m = texts env m
  | [], _ => rfl
  | p :: m, h => by
    rw [msgNames_cons, List.mem_append, not_or] at h
    simp only [texts, Piece.text_skip h.1, texts_skip h.2]

theorem all_ok_skip {x : Name} {k : Kind} {Γ : Ctx} : ∀ {m : List Piece}, x ∉ msgNames m →
    m.all (·.ok ((x, k) :: Γ)) = m.all (·.ok Γ)
  | [], _ => rfl
  | p :: m, h => by
    rw [msgNames_cons, List.mem_append, not_or] at h
    simp only [List.all_cons, Piece.ok_skip h.1, all_ok_skip h.2]

theorem texts_append (env : Env) : ∀ (m n : List Piece), texts env (m ++ n) =
    match texts env m with
    | some l => match texts env n with
      | some l' => some (l ++ l')
      | none => none
    | none => none
  | [], n => by simp only [List.nil_append, texts]; cases texts env n <;> rfl
  | p :: m, n => by
    simp only [List.cons_append, texts, texts_append env m n]
    cases p.text env <;> cases texts env m <;> cases texts env n <;> rfl

theorem cat_append : ∀ l l' : List String, cat (l ++ l') = cat l ++ cat l'
  | [], l' => by simp [cat]
  | s :: l, l' => by simp only [List.cons_append, cat, cat_append l l', String.append_assoc]

/-- Writing to a stream that the parts do not mention. -/
theorem putAll_fresh {x : Name} {env : Env} : ∀ {m : List Piece} (t : String), x ∉ msgNames m →
    putAll x m ((x, .stream t) :: env) =
      match texts env m with
      | some l => some ((x, .stream (t ++ cat l)) :: env)
      | none => none
  | [], t, _ => by simp [putAll, texts, cat]
  | p :: m, t, h => by
    rw [msgNames_cons, List.mem_append, not_or] at h
    simp only [putAll, Piece.text_skip h.1, lookup_self, texts]
    cases hp : p.text env with
    | none => simp
    | some s =>
      simp only [set, if_true]
      rw [putAll_fresh (t ++ s) h.2]
      cases texts env m <;> simp [cat, String.append_assoc]

theorem ctx_cons (x : Name) (c : Cell) (env : Env) : ctx ((x, c) :: env) = (x, c.kind) :: ctx env := rfl

/-- `HELPER_THROW`. -/
theorem throwBody_ok (ex : String) (f m : List Piece) (Γ : Ctx) (hf : "ss" ∉ msgNames f) (hm : "ss" ∉ msgNames m) :
    (throwBody ex f m).ok Γ = (f.all (·.ok Γ) && m.all (·.ok Γ)) := by
  simp only [throwBody, Stm.ok, Stms.ok, one, lookup_self, List.all_append, List.all_cons, List.all_nil, Piece.ok_lit, all_ok_skip hf,
    all_ok_skip hm, Bool.and_true, Bool.true_and, BEq.rfl]

theorem throwBody_run (ex : String) (f m : List Piece) (st : St) (hf : "ss" ∉ msgNames f) (hm : "ss" ∉ msgNames m) :
    (throwBody ex f m).run st = msg st f fun l => msg st m fun l' => .thrown (cat ([ex ++ " in "] ++ l ++ [": "] ++ l')) := by
  have h : "ss" ∉ msgNames ([.lit (ex ++ " in ")] ++ f ++ [.lit ": "] ++ m) := by
    simp only [msgNames_append, List.mem_append, not_or]
    refine ⟨⟨⟨?_, hf⟩, ?_⟩, hm⟩ <;> simp [msgNames, Piece.names]
  simp only [throwBody, Stm.run, Stms.run, one, putAll_fresh "" h, texts_append, texts, Piece.text, msg]
  cases texts st.env f <;> cases texts st.env m <;> simp

/-- The macros that throw unless a condition holds. -/
theorem guardBody_ok (x : Name) (s : Site) (e : Ex) (m : List Piece) (Γ : Ctx) (he : x ∉ e.names) (hm : x ∉ msgNames m)
    (hs : "ss" ∉ msgNames m) : (guardBody x s e m).ok Γ = (e.ok Γ && m.all (·.ok Γ)) := by
  have h1 : "ss" ∉ msgNames [Piece.lit s.loc] := by simp [msgNames, Piece.names]
  simp only [guardBody, Stm.ok, Stms.ok, one, Ex.ok_skip he, throwBody_ok _ _ _ _ h1 hs, all_ok_skip hm, Ex.ok, lookup_self, BEq.rfl,
    List.all_cons, List.all_nil, Piece.ok_lit, Bool.and_true, Bool.true_and]

theorem guardBody_run (x : Name) (s : Site) (e : Ex) (m : List Piece) (st : St) (he : x ∉ e.names) (hm : x ∉ msgNames m)
    (hs : "ss" ∉ msgNames m) :
    (guardBody x s e m).run st = val st e fun v => if v ≠ 0 then .done st else msg st m fun l => .thrown (cat (head s ++ l)) := by
  have h1 : "ss" ∉ msgNames [Piece.lit s.loc] := by simp [msgNames, Piece.names]
  simp only [guardBody, Stm.run, Stms.run, one, Ex.eval_skip he, throwBody_run _ _ _ _ h1 hs, val, Ex.eval, lookup_self, msg, texts,
    Piece.text, texts_skip hm]
  cases hv : e.eval st.env with
  | none => rfl
  | some v =>
    by_cases h : v = 0
    · simp only [Init.conv, h, if_true]
      cases texts st.env m <;> simp [head]
    · simp [Init.conv, h]

end Helper.Names
