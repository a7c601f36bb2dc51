import Verif.Names.Lemmas
/-!
# Property C97: the arguments of macros are evaluated with the variables of the caller
-/
set_option linter.unusedSectionVars false
set_option linter.unusedSimpArgs false
namespace Helper.Names

theorem lits (env : Env) : ∀ (l : List String) (m : List Piece), texts env (l.map Piece.lit ++ m) =
    match texts env m with
    | some l' => some (l ++ l')
    | none => none
  | [], m => by cases h : texts env m <;> simp [h]
  | s :: l, m => by
    simp only [List.map_cons, List.cons_append, texts, Piece.text, lits env l m]
    cases texts env m <;> rfl

theorem lits_names (l : List String) (x : Name) (m : List Piece) (h : x ∉ msgNames m) : x ∉ msgNames (l.map Piece.lit ++ m) := by
  rw [msgNames_append, List.mem_append, not_or]
  refine ⟨?_, h⟩
  simp [msgNames, Piece.names]

theorem lits_ok (l : List String) (m : List Piece) (Γ : Ctx) : (l.map Piece.lit ++ m).all (·.ok Γ) = m.all (·.ok Γ) := by
  induction l with
  | nil => rfl
  | cons s l ih => simp only [List.map_cons, List.cons_append, List.all_cons, Piece.ok_lit, Bool.true_and, ih]

theorem guard_use (k : Mac) (x : Name) (s : Site) (e : Ex) (l pre : List String) (m : List Piece) (st : St)
    (hk : k.body s = guardBody x s e (l.map Piece.lit ++ m)) (he : x ∉ e.names) (hm : x ∉ msgNames m)
    (hs : "ss" ∉ msgNames m) (hpre : ∀ l', cat (head s ++ (l ++ l')) = cat (pre ++ l')) :
    k.use s st = condThrow st e pre m := by
  have h1 := lits_names l x m hm
  have h2 := lits_names l "ss" m hs
  rw [Mac.use, hk, guardBody_ok _ _ _ _ _ he h1 h2, guardBody_run _ _ _ _ _ he h1 h2, lits_ok, condThrow, typed]
  simp only [List.all_cons, List.all_nil, Bool.and_true, msg, lits]
  cases texts st.env m with
  | none => rfl
  | some l' => simp only [hpre]

theorem failed_text (s : Site) (w : String) (e : Ex) (l' : List String) :
    cat (head s ++ ([w ++ " `", s.src e, "' failed."] ++ l')) = cat ((head s ++ [w ++ " `", s.src e, "' failed."]) ++ l') := by
  rw [List.append_assoc]

theorem failed_text_msg (s : Site) (w : String) (e : Ex) (l' : List String) :
    cat (head s ++ ([w ++ " `", s.src e, "' failed.", "\n", "  "] ++ l')) =
      cat ((head s ++ [w ++ " `", s.src e, "' failed.\n  "]) ++ l') := by
  rw [List.append_assoc, cat_append, cat_append (head s)]
  congr 1

theorem nil_names (x : Name) : x ∉ msgNames [] := by simp [msgNames]

theorem use_congr {s : Site} {k : Mac} {st : St} {es : List Ex} {ps : List Piece} {r : R}
    (hok : (k.body s).ok (ctx st.env) = (es.all (·.ok (ctx st.env)) && ps.all (·.ok (ctx st.env))))
    (hrun : (k.body s).run st = r) : k.use s st = typed st es ps r := by
  rw [Mac.use, typed, hok, hrun]

/-- A macro compiles if its arguments do. -/
macro "compiles" "[" hs:Lean.Parser.Tactic.simpLemma,* "]" : tactic => `(tactic|
  simp only [Mac.body, Stm.ok, Stms.ok, one, report, Ex.ok, Init.kind, lookup_self, BEq.rfl, List.all_cons, List.all_nil, Piece.ok_ex,
    Bool.and_true, Bool.true_and, Bool.and_self, $hs,*])

macro "runs" "[" hs:Lean.Parser.Tactic.simpLemma,* "]" : tactic => `(tactic|
  simp [Mac.body, Stm.run, Stms.run, one, report, Ex.eval, Init.cell, lookup_self, texts, Piece.text, failed, printed, Init.conv, val, $hs,*])


/-- Tests of two expressions that keep the result in `ok`. -/
macro "test2" st:ident "," a:ident "," b:ident "," c:term "," h:ident "," "[" hs:Lean.Parser.Tactic.simpLemma,* "]" : tactic => `(tactic|
  (refine use_congr ?_ ?_
   · (compiles [Ex.ok_skip (And.left $h), Ex.ok_skip (And.right $h)]; try (cases Ex.ok (ctx (St.env $st)) $a <;> cases Ex.ok (ctx (St.env $st)) $b <;> rfl))
   · cases ha : Ex.eval (St.env $st) $a with
     | none => runs [Ex.eval_skip (And.left $h), Ex.eval_skip (And.right $h), ha, $hs,*]
     | some v =>
       cases hb : Ex.eval (St.env $st) $b with
       | none => runs [Ex.eval_skip (And.left $h), Ex.eval_skip (And.right $h), ha, hb, $hs,*]
       | some w => by_cases e : ($c v w) <;> runs [Ex.eval_skip (And.left $h), Ex.eval_skip (And.right $h), ha, hb, e, $hs,*]))

theorem msg_use (s : Site) (k : Mac) (st : St) (m : List Piece) (f : List String → R)
    (h : k.body s = .block (one (.err m))) (hm : (fun l => R.done { st with err := st.err ++ l }) = f) :
    k.use s st = typed st [] m (msg st m f) := by
  refine use_congr ?_ ?_
  · rw [h]; simp only [Stm.ok, Stms.ok, one, List.all_nil, Bool.and_true, Bool.true_and]
  · rw [h, ← hm]; simp only [Stm.run, Stms.run, one, msg]; cases texts st.env m <;> rfl

/-- C97: arguments that do not use the names declared by a macro are evaluated with the variables of the caller, and the macro does with
the values what it should. -/
theorem C97_clean_partial (s : Site) (k : Mac) (st : St) (h : k.clean) : k.use s st = k.means s st := by
  cases k with
  | throw_ ex f m =>
    refine use_congr ?_ ?_
    · rw [Mac.body, throwBody_ok _ _ _ _ h.1 h.2]; simp only [List.all_nil, List.all_append, Bool.true_and]
    · exact throwBody_run _ _ _ _ h.1 h.2
  | assert e =>
    refine guard_use _ _ s e ["Assertion" ++ " `", s.src e, "' failed."] _ [] st ?_ h (nil_names _) (nil_names _) fun l' => ?_
    · rfl
    · exact failed_text s "Assertion" e l'
  | debugAssert e =>
    refine guard_use _ _ s e ["Assertion" ++ " `", s.src e, "' failed."] _ [] st ?_ h (nil_names _) (nil_names _) fun l' => ?_
    · rfl
    · exact failed_text s "Assertion" e l'
  | precondition e =>
    refine guard_use _ _ s e ["Precondition" ++ " `", s.src e, "' failed."] _ [] st ?_ h (nil_names _) (nil_names _) fun l' => ?_
    · rfl
    · exact failed_text s "Precondition" e l'
  | debugPrecondition e =>
    refine guard_use _ _ s e ["Precondition" ++ " `", s.src e, "' failed."] _ [] st ?_ h (nil_names _) (nil_names _) fun l' => ?_
    · rfl
    · exact failed_text s "Precondition" e l'
  | assertMsg e m =>
    refine guard_use _ _ s e ["Assertion" ++ " `", s.src e, "' failed.", "\n", "  "] _ m st ?_ h.1 h.2.1 h.2.2 fun l' => ?_
    · rfl
    · exact failed_text_msg s "Assertion" e l'
  | debugAssertMsg e m =>
    refine guard_use _ _ s e ["Assertion" ++ " `", s.src e, "' failed.", "\n", "  "] _ m st ?_ h.1 h.2.1 h.2.2 fun l' => ?_
    · rfl
    · exact failed_text_msg s "Assertion" e l'
  | preconditionMsg e m =>
    refine guard_use _ _ s e ["Precondition" ++ " `", s.src e, "' failed.", "\n", "  "] _ m st ?_ h.1 h.2.1 h.2.2 fun l' => ?_
    · rfl
    · exact failed_text_msg s "Precondition" e l'
  | failMsg m =>
    have h1 : "ss" ∉ msgNames [Piece.lit s.loc] := by simp [msgNames, Piece.names]
    have h2 : "ss" ∉ msgNames ([Piece.lit "ErrorTag "] ++ m) := by simpa [msgNames, Piece.names, Mac.clean] using h
    refine use_congr ?_ ?_
    · simp only [Mac.body, Stm.ok, Stms.ok, one, throwBody_ok _ _ _ _ h1 h2, List.all_nil, List.all_append, List.all_cons, Piece.ok_lit,
        Bool.true_and, Bool.and_true]
    · simp only [Mac.body, Stm.run, Stms.run, one, throwBody_run _ _ _ _ h1 h2, msg, texts, Piece.text, texts_append, head]
      cases texts st.env m <;> simp
  | assertEqual a b =>
    have h1 : "assertion_result" ∉ (Ex.op eqF a b).names := by simpa [Ex.names] using ⟨h.1.1, h.2.1⟩
    have h2 : ∀ x, x ∉ a.names → x ∉ b.names → x ∉ msgNames ([.lit "Assertion `", .lit (s.src a), .lit "==", .lit (s.src b),
        .lit "' failed.\n", .lit "  ", .ex a, .lit " != ", .ex b] : List Piece) := by
      intro x ha hb; simpa [msgNames, Piece.names] using ⟨ha, hb⟩
    refine use_congr ?_ ?_
    · rw [Mac.body, guardBody_ok _ _ _ _ _ h1 (h2 _ h.1.1 h.2.1) (h2 _ h.1.2 h.2.2)]
      simp only [Ex.ok, List.all_cons, List.all_nil, Piece.ok_lit, Piece.ok_ex, Bool.true_and, Bool.and_true, Bool.and_self]
    · rw [Mac.body, guardBody_run _ _ _ _ _ h1 (h2 _ h.1.1 h.2.1) (h2 _ h.1.2 h.2.2)]
      cases ha : a.eval st.env with
      | none => simp [val, Ex.eval, ha]
      | some v =>
        cases hb : b.eval st.env with
        | none => simp [val, Ex.eval, ha, hb]
        | some w =>
          by_cases e : v = w
          · simp [val, Ex.eval, ha, hb, e, eqF]
          · simp only [val, Ex.eval, ha, hb, eqF, e, msg, texts, Piece.text, ne_eq, not_true_eq_false, if_false]
            rw [cat_append, cat_append]
            congr 1
  | notify m => exact msg_use s _ st m _ rfl rfl
  | warn m => exact msg_use s _ st m _ rfl rfl
  | error m => exact msg_use s _ st m _ rfl rfl
  | warnOnce seen m =>
    refine use_congr ?_ ?_
    · compiles [all_ok_skip (show "first_time" ∉ msgNames m from h)]
    · cases seen with
      | true => runs [texts_skip (show "first_time" ∉ msgNames m from h)]
      | false =>
        cases hm : texts st.env m <;> runs [texts_skip (show "first_time" ∉ msgNames m from h), set, hm, msg]
  | tAssert e =>
    refine use_congr ?_ ?_
    · compiles [Ex.ok_skip (show "result" ∉ e.names from h)]
    · cases he : e.eval st.env with
      | none => runs [Ex.eval_skip (show "result" ∉ e.names from h), he]
      | some v => by_cases e0 : v = 0 <;> runs [Ex.eval_skip (show "result" ∉ e.names from h), he, e0]
  | tCheck a b => test2 st, a, b, fun v w : Int => v = w, h, [eqF]
  | tCheckWarn a b => test2 st, a, b, fun v w : Int => v = w, h, [eqF]
  | tSame f a b => test2 st, a, b, fun v w : Int => f v w = 0, h, [eqF]
  | tSameAs f a b => test2 st, a, b, fun v w : Int => f v w = 0, h, [eqF]
  | tEqual a b => test2 st, a, b, fun v w : Int => v = w, h, [eqF]
  | tNotEqual a b => test2 st, a, b, fun v w : Int => v = w, h, [eqF]
  | tEquals a b => test2 st, a, b, fun v w : Int => v = w, h, [eqF]
  | tLess a b => test2 st, a, b, fun v w : Int => v < w, h, [ltF]
  | tCompare f a b => test2 st, a, b, fun v w : Int => f v w = 0, h, [eqF]
  | tPrint e =>
    refine use_congr ?_ ?_
    · compiles []
    · cases he : e.eval st.env <;> runs [he]
  | tComment m =>
    refine use_congr ?_ ?_
    · compiles []
    · cases hm : texts st.env m <;> runs [hm, msg]
  | tWarn m =>
    refine use_congr ?_ ?_
    · compiles []
    · cases hm : texts st.env m <;> runs [hm, msg]
  | tUnary p a =>
    refine use_congr ?_ ?_
    · compiles [Ex.ok_skip h.2, lookup_skip _ _ h.1.symm]
      cases Ex.ok (ctx st.env) a <;> simp
    · cases ha : a.eval st.env with
      | none => runs [Ex.eval_skip h.2, lookup_skip _ _ h.1.symm, ha]
      | some v =>
        cases hp : st.env.lookup p with
        | none => runs [Ex.eval_skip h.2, lookup_skip _ _ h.1.symm, ha, hp]
        | some c =>
          cases c with
          | fn1 g => by_cases e : g v = 0 <;> runs [Ex.eval_skip h.2, lookup_skip _ _ h.1.symm, ha, hp, e]
          | _ => runs [Ex.eval_skip h.2, lookup_skip _ _ h.1.symm, ha, hp]
  | tBinary p a b =>
    refine use_congr ?_ ?_
    · compiles [Ex.ok_skip h.2.1, Ex.ok_skip h.2.2, lookup_skip _ _ h.1.symm]
      cases Ex.ok (ctx st.env) a <;> cases Ex.ok (ctx st.env) b <;> simp
    · cases ha : a.eval st.env with
      | none => runs [Ex.eval_skip h.2.1, Ex.eval_skip h.2.2, lookup_skip _ _ h.1.symm, ha]
      | some v =>
        cases hb : b.eval st.env with
        | none => runs [Ex.eval_skip h.2.1, Ex.eval_skip h.2.2, lookup_skip _ _ h.1.symm, ha, hb]
        | some w =>
          cases hp : st.env.lookup p with
          | none => runs [Ex.eval_skip h.2.1, Ex.eval_skip h.2.2, lookup_skip _ _ h.1.symm, ha, hb, hp]
          | some c =>
            cases c with
            | fn2 g => by_cases e : g v w = 0 <;> runs [Ex.eval_skip h.2.1, Ex.eval_skip h.2.2, lookup_skip _ _ h.1.symm, ha, hb, hp, e]
            | _ => runs [Ex.eval_skip h.2.1, Ex.eval_skip h.2.2, lookup_skip _ _ h.1.symm, ha, hb, hp]
  | tWithin a b t =>
    obtain ⟨⟨ha1, ha2⟩, ⟨hb1, hb2⟩, ht1, ht2⟩ := h
    refine use_congr ?_ ?_
    · compiles [Ex.ok_skip ha1, Ex.ok_skip ha2, Ex.ok_skip hb1, Ex.ok_skip hb2, Ex.ok_skip ht1, Ex.ok_skip ht2,
        lookup_skip _ _ (show "ok" ≠ "error" by decide)]
      cases Ex.ok (ctx st.env) a <;> cases Ex.ok (ctx st.env) b <;> simp
    · cases ha : a.eval st.env with
      | none => runs [Ex.eval_skip ha1, ha]
      | some v =>
        cases hb : b.eval st.env with
        | none => runs [Ex.eval_skip ha1, Ex.eval_skip hb1, ha, hb]
        | some w =>
          cases ht : t.eval st.env with
          | none =>
            runs [Ex.eval_skip ha1, Ex.eval_skip hb1, Ex.eval_skip ht1, Ex.eval_skip ht2, ha, hb, ht,
              lookup_skip _ _ (show "ok" ≠ "error" by decide)]
          | some u =>
            by_cases e : ((v - w).natAbs : Int) ≤ u <;>
              runs [Ex.eval_skip ha1, Ex.eval_skip hb1, Ex.eval_skip ht1, Ex.eval_skip ht2, Ex.eval_skip ha2, Ex.eval_skip hb2, ha, hb, ht, e,
                distF, leF, lookup_skip _ _ (show "ok" ≠ "error" by decide)]
  | tResultCompare f a b =>
    obtain ⟨ha1, hb1, hb2⟩ := h
    refine use_congr ?_ ?_
    · compiles [Ex.ok_skip ha1, Ex.ok_skip hb1, Ex.ok_skip hb2, lookup_skip _ _ (show "ok" ≠ "result" by decide)]
    · cases ha : a.eval st.env with
      | none => runs [Ex.eval_skip ha1, ha]
      | some v =>
        cases hb : b.eval st.env with
        | none =>
          runs [Ex.eval_skip ha1, Ex.eval_skip hb1, Ex.eval_skip hb2, ha, hb, lookup_skip _ _ (show "ok" ≠ "result" by decide)]
        | some w =>
          by_cases e : f v w = 0 <;>
            runs [Ex.eval_skip ha1, Ex.eval_skip hb1, Ex.eval_skip hb2, ha, hb, e, lookup_skip _ _ (show "ok" ≠ "result" by decide)]

/-- A caller with the variables `x = 3` and `y = 4`. -/
def caller : St := ⟨[("x", .num (some 3)), ("y", .num (some 4))], [], [], 0⟩

def site : Site := ⟨"a.cpp:1: f", fun _ => "x==y"⟩

example : (Mac.assertMsg (.op eqF (.var "x") (.var "y")) [.lit "x=", .ex (.var "x")]).use site caller =
    .thrown "std::runtime_error in a.cpp:1: f: Assertion `x==y' failed.\n  x=3" := by
  rw [C97_clean_partial _ _ _ (by simp [Mac.clean, Ex.names, msgNames, Piece.names])]
  rfl

/-! ## Names of the macros in the arguments -/

/-- Evaluating the expression always reads the variable. -/
def Ex.needs (x : Name) : Ex → Prop
  | .lit _ => False
  | .var y => y = x
  | .op _ a b => a.needs x ∨ b.needs x
  | .and_ a _ => a.needs x
  | .call1 _ a => a.needs x
  | .call2 _ a b => a.needs x ∨ b.needs x

theorem Ex.eval_needs {x : Name} (env : Env) : ∀ {e : Ex}, e.needs x → e.eval ((x, .num none) :: env) = none
  | .var y, h => by
    have : y = x := h
    rw [this]; simp only [Ex.eval, lookup_self]
  | .op f a b, h => by
    rcases h with h | h
    · simp only [Ex.eval, Ex.eval_needs env h]
    · simp only [Ex.eval, Ex.eval_needs env h]; split <;> rfl
  | .and_ a b, h => by simp only [Ex.eval, Ex.eval_needs env (e := a) h]
  | .call1 f a, h => by simp only [Ex.eval, Ex.eval_needs env (e := a) h]; split <;> rfl
  | .call2 f a b, h => by
    rcases h with h | h
    · simp only [Ex.eval, Ex.eval_needs env h]; split <;> rfl
    · simp only [Ex.eval, Ex.eval_needs env h]; split <;> first | rfl | (split <;> rfl)

/-- The variable that a macro declares with the type `bool` (or, for `HELPER_TEST_RESULT_COMPARE`, a given type), and what it is
initialised with. -/
def Mac.cond : Mac → Option (Name × Ex)
  | .assert e | .debugAssert e | .precondition e | .assertMsg e _ | .debugAssertMsg e _ | .preconditionMsg e _ => some ("assertion_result", e)
  | .debugPrecondition e => some ("result", e)
  | .assertEqual a b => some ("assertion_result", .op eqF a b)
  | .tCheck a b | .tCheckWarn a b | .tEqual a b | .tNotEqual a b | .tEquals a b => some ("ok", .op eqF a b)
  | .tSame f a b | .tSameAs f a b | .tCompare f a b => some ("ok", .op f a b)
  | .tLess a b => some ("ok", .op ltF a b)
  | .tUnary p a => some ("ok", .call1 p a)
  | .tBinary p a b => some ("ok", .call2 p a b)
  | .tResultCompare _ a _ => some ("result", a)
  | _ => none

theorem out_ub (ps : List Piece) (l : Stms) (st : St) (h : ∀ st', l.run st' = .ub) : (Stm.block (.cons (.out ps) l)).run st = .ub := by
  simp only [Stm.run, Stms.run]
  cases texts st.env ps with
  | none => rfl
  | some t => exact h _

/-- C97: a condition that reads a variable with the name of the macro's own variable reads that one before it is initialised: whatever
the value of the caller's variable is, the macro does not compile or is undefined. -/
theorem C97_self_refuted (s : Site) (k : Mac) (x : Name) (e : Ex) (st : St) (h : k.cond = some (x, e)) (hn : e.needs x) :
    k.use s st = .ill ∨ k.use s st = .ub := by
  have hd : ∀ (i : Init) l (st' : St), i ≠ .auto → (Stms.decl i x e l).run st' = .ub := by
    intro i l st' hi
    have : i.cell = .num none := by cases i <;> first | rfl | exact absurd rfl hi
    simp only [Stms.run, this, Ex.eval_needs st'.env hn]
  have key : (k.body s).run st = .ub := by
    cases k <;> simp only [Mac.cond, Option.some.injEq, Prod.mk.injEq, reduceCtorEq] at h <;> obtain ⟨rfl, rfl⟩ := h
    case tUnary p a => exact out_ub _ _ _ fun st' => hd _ _ st' (by decide)
    case tBinary p a b => exact out_ub _ _ _ fun st' => hd _ _ st' (by decide)
    case tCompare f a b => exact out_ub _ _ _ fun st' => hd _ _ st' (by decide)
    all_goals
      simp only [Mac.body, guardBody, Stm.run]
      exact hd _ _ _ (by decide)
  unfold Mac.use
  split
  · exact .inr key
  · exact .inl rfl

/-- `HELPER_DEBUG_PRECONDITION(result)`: the variable `result` of the caller is 1, but another one is read. -/
example : (Mac.debugPrecondition (.var "result")).use site { caller with env := [("result", .num (some 1))] } = .ub ∧
    (Mac.debugPrecondition (.var "result")).means site { caller with env := [("result", .num (some 1))] } =
      .done { caller with env := [("result", .num (some 1))] } := ⟨rfl, rfl⟩

/-- C97: a condition that does not get to the name because of `&&` is not affected: the first operand is false, and the macro throws as
it should. -/
theorem C97_and_partial (s : Site) (st : St) (a b : Ex) (ha : "assertion_result" ∉ a.names) (oa : a.ok (ctx st.env) = true)
    (ob : b.ok (("assertion_result", .num) :: ctx st.env) = true) (va : a.eval st.env = some 0) :
    (Mac.assert (.and_ a b)).use s st = .thrown (cat (head s ++ ["Assertion `", s.src (.and_ a b), "' failed."])) := by
  have h1 : "ss" ∉ msgNames [Piece.lit s.loc] := by simp [msgNames, Piece.names]
  have h2 : "ss" ∉ msgNames (failedText s "Assertion" (.and_ a b)) := by simp [msgNames, Piece.names, failedText]
  rw [Mac.use, if_pos]
  · simp only [Mac.body, guardBody, Stm.run, Stms.run, one, Ex.eval, Ex.eval_skip ha, va, Init.conv, if_true, lookup_self,
      throwBody_run _ _ _ _ h1 h2]
    simp only [msg, texts, Piece.text, failedText]
    rfl
  · simp only [Mac.body, guardBody, Stm.ok, Stms.ok, one, Ex.ok, Init.kind, Ex.ok_skip ha, oa, ob, throwBody_ok _ _ _ _ h1 h2]
    simp only [List.all_cons, List.all_nil, failedText, Piece.ok_lit, lookup_self, BEq.rfl, Bool.and_true, Bool.true_and]

example : (Mac.assert (.and_ (.lit 0) (.var "assertion_result"))).use site caller =
    .thrown "std::runtime_error in a.cpp:1: f: Assertion `x==y' failed." :=
  (C97_and_partial site caller (.lit 0) (.var "assertion_result") (by simp [Ex.names]) rfl rfl rfl).trans rfl

theorem Ex.ok_bad {x : Name} {k : Kind} {Γ : Ctx} (h1 : k ≠ .num) (h2 : k ≠ .fn1) (h3 : k ≠ .fn2) :
    ∀ {e : Ex}, x ∈ e.names → e.ok ((x, k) :: Γ) = false
  | .lit _, h => by cases h
  | .var y, h => by
    have : x = y := by simpa [Ex.names] using h
    rw [← this]; simpa [Ex.ok, lookup_self] using h1
  | .op f a b, h => by
    rcases List.mem_append.1 h with h | h
    · simp only [Ex.ok, Ex.ok_bad h1 h2 h3 h, Bool.false_and]
    · simp only [Ex.ok, Ex.ok_bad h1 h2 h3 h, Bool.and_false]
  | .and_ a b, h => by
    rcases List.mem_append.1 h with h | h
    · simp only [Ex.ok, Ex.ok_bad h1 h2 h3 h, Bool.false_and]
    · simp only [Ex.ok, Ex.ok_bad h1 h2 h3 h, Bool.and_false]
  | .call1 f a, h => by
    rcases List.mem_cons.1 h with h | h
    · rw [← h]; simp [Ex.ok, lookup_self, h2]
    · simp only [Ex.ok, Ex.ok_bad h1 h2 h3 h, Bool.and_false]
  | .call2 f a b, h => by
    simp only [Ex.names, List.cons_append, List.mem_cons, List.mem_append] at h
    rcases h with h | h | h
    · rw [← h]; simp [Ex.ok, lookup_self, h3]
    · simp only [Ex.ok, Ex.ok_bad h1 h2 h3 h, Bool.and_false, Bool.false_and]
    · simp only [Ex.ok, Ex.ok_bad h1 h2 h3 h, Bool.and_false]

/-- C97: `HELPER_TEST_ASSERT` does not compile for an expression with the name `result`, nor does `HELPER_TEST_WITHIN` if one of the
expressions compared has the name `error`. -/
theorem C97_auto_refuted (s : Site) (st : St) (a b t : Ex) :
    ("result" ∈ a.names → (Mac.tAssert a).use s st = .ill) ∧
    ("error" ∈ a.names ∨ "error" ∈ b.names → (Mac.tWithin a b t).use s st = .ill) := by
  refine ⟨fun h => ?_, fun h => ?_⟩
  · rw [Mac.use, if_neg]
    simp only [Mac.body, Stm.ok, Stms.ok, Init.kind, Ex.ok_bad (k := .auto) (by decide) (by decide) (by decide) h, Bool.false_and]
    decide
  · have : (Ex.op distF a b).ok (("error", .auto) :: ctx st.env) = false :=
      Ex.ok_bad (by decide) (by decide) (by decide) (List.mem_append.2 h)
    rw [Mac.use, if_neg]
    simp only [Mac.body, Stm.ok, Stms.ok, Init.kind, this, Bool.false_and]
    decide

/-- With a variable of the caller of that name, the macro should have compiled. -/
example : (Mac.tAssert (.var "result")).means site { caller with env := [("result", .num (some 1))] } =
    .done { caller with env := [("result", .num (some 1))] } := rfl

/-- C97: a tolerance called `error` makes `HELPER_TEST_WITHIN` pass for all values: the distance is compared with itself. -/
theorem C97_within_refuted (s : Site) (st : St) (a b : Ex) (v w : Int) (ha : "error" ∉ a.names ∧ "ok" ∉ a.names)
    (hb : "error" ∉ b.names ∧ "ok" ∉ b.names) (oa : a.ok (ctx st.env) = true) (ob : b.ok (ctx st.env) = true)
    (va : a.eval st.env = some v) (vb : b.eval st.env = some w) : (Mac.tWithin a b (.var "error")).use s st = .done st := by
  have hne : "ok" ≠ "error" := by decide
  rw [Mac.use, if_pos]
  · runs [Ex.eval_skip ha.1, Ex.eval_skip hb.1, va, vb, leF, lookup_skip _ _ hne]
  · compiles [Ex.ok_skip ha.1, Ex.ok_skip ha.2, Ex.ok_skip hb.1, Ex.ok_skip hb.2, oa, ob, lookup_skip _ _ hne]

/-- 3 is within 0 of 100, if the 0 is called `error`. -/
example : (Mac.tWithin (.lit 3) (.lit 100) (.var "error")).use site { caller with env := [("error", .num (some 0))] } =
    .done { caller with env := [("error", .num (some 0))] } :=
  C97_within_refuted _ _ _ _ 3 100 (by simp [Ex.names]) (by simp [Ex.names]) rfl rfl rfl rfl

/-- C97: with an expected value called `result`, `HELPER_TEST_RESULT_COMPARE` compares the result with itself: it passes for all values of the
caller's variable, if the comparison is reflexive at the result. -/
theorem C97_result_refuted (s : Site) (st : St) (f : Int → Int → Int) (a : Ex) (v : Int) (ha : "result" ∉ a.names)
    (oa : a.ok (ctx st.env) = true) (va : a.eval st.env = some v) (hf : f v v ≠ 0) :
    (Mac.tResultCompare f a (.var "result")).use s st = .done (printed st [v, v]) := by
  have hne : "ok" ≠ "result" := by decide
  rw [Mac.use, if_pos]
  · runs [Ex.eval_skip ha, va, hf, lookup_skip _ _ hne]
  · compiles [Ex.ok_skip ha, oa, lookup_skip _ _ hne]

/-- 3 equals 100, if the 100 is called `result`. -/
example : (Mac.tResultCompare eqF (.lit 3) (.var "result")).use site { caller with env := [("result", .num (some 100))] } =
    .done (printed { caller with env := [("result", .num (some 100))] } [3, 3]) :=
  C97_result_refuted _ _ _ _ 3 (by simp [Ex.names]) rfl rfl (by decide)

/-- C97: a message with the text of a stream of the caller that is called `ss` shows the beginning of the message itself instead. -/
theorem C97_stream_refuted (s : Site) (st : St) (ex : String) (f : List Piece) (l : List String) (hf : "ss" ∉ msgNames f)
    (of : f.all (·.ok (ctx st.env)) = true) (tf : texts st.env f = some l) :
    (Mac.throw_ ex f [.str "ss"]).use s st = .thrown (cat ([ex ++ " in "] ++ l ++ [": "]) ++ cat ([ex ++ " in "] ++ l ++ [": "])) := by
  have h : "ss" ∉ msgNames ([.lit (ex ++ " in ")] ++ f ++ [.lit ": "]) := by
    simp only [msgNames_append, List.mem_append, not_or]
    refine ⟨⟨?_, hf⟩, ?_⟩ <;> simp [msgNames, Piece.names]
  have split : ∀ (m n : List Piece) (env : Env), putAll "ss" (m ++ n) env = (putAll "ss" m env).bind (putAll "ss" n) := by
    intro m
    induction m with
    | nil => intro n env; rfl
    | cons p m ih =>
      intro n env
      simp only [List.cons_append, putAll]
      cases p.text env with
      | none => rfl
      | some t =>
        cases env.lookup "ss" with
        | none => rfl
        | some c => cases c <;> first | rfl | exact ih _ _
  rw [Mac.use, if_pos]
  · simp only [Mac.body, throwBody, Stm.run, Stms.run, one, split _ [.str "ss"], putAll_fresh "" h, texts_append, texts, Piece.text, tf,
      Option.bind, putAll, lookup_self, set, if_true, String.empty_append]
  · simp only [Mac.body, throwBody, Stm.ok, Stms.ok, one, lookup_self, List.all_append, List.all_cons, List.all_nil, Piece.ok_lit,
      all_ok_skip hf, of, Piece.ok_str, Bool.and_true, Bool.true_and, BEq.rfl]

/-- A message with `x.str()` does not compile where `x` is no stream of the caller, as it would not outside of the macro. -/
theorem C97_notStream (s : Site) (st : St) (ex : String) (f m : List Piece) (x : Name) (hx : "ss" ≠ x)
    (h : (ctx st.env).lookup x ≠ some .stream) (hm : .str x ∈ m) :
    (Mac.throw_ ex f m).use s st = .ill := by
  have bad : m.all (·.ok (("ss", .stream) :: ctx st.env)) = false := by
    refine Bool.eq_false_iff.2 fun h' => ?_
    have := List.all_eq_true.1 h' _ hm
    rw [Piece.ok_str, lookup_skip _ _ hx] at this
    exact h (by simpa using this)
  rw [Mac.use, if_neg]
  simp only [Mac.body, throwBody, Stm.ok, Stms.ok, List.all_append, bad, Bool.and_false, Bool.false_and]
  decide

example : (Mac.throw_ "E" [.lit "f"] [.str "n"]).use site { caller with env := [("n", .num (some 3))] } = .ill :=
  C97_notStream _ _ _ _ _ "n" (by decide) (by decide) (by simp)

/-- `std::stringstream ss; ss << "size " << 3; HELPER_THROW(E,"f",ss.str());` -/
example : (Mac.throw_ "E" [.lit "f"] [.str "ss"]).use site { caller with env := [("ss", .stream "size 3")] } = .thrown "E in f: E in f: " ∧
    (Mac.throw_ "E" [.lit "f"] [.str "ss"]).means site { caller with env := [("ss", .stream "size 3")] } = .thrown "E in f: size 3" :=
  ⟨(C97_stream_refuted site _ "E" [.lit "f"] ["f"] (by simp [msgNames, Piece.names]) rfl rfl).trans rfl, rfl⟩

/-- C97: a message that writes an expression with the name `ss` does not compile, in all macros with a message that throw. -/
theorem C97_ss_refuted (s : Site) (st : St) (k : Mac) (e : Ex) (m : List Piece) (he : "ss" ∈ e.names) (hm : .ex e ∈ m)
    (hk : k = .throw_ "std::runtime_error" [] m ∨ (∃ c, k = .assertMsg c m ∨ k = .debugAssertMsg c m ∨ k = .preconditionMsg c m) ∨
      k = .failMsg m) : k.use s st = .ill := by
  have bad : ∀ Γ : Ctx, m.all (·.ok (("ss", .stream) :: Γ)) = false := by
    intro Γ
    refine Bool.eq_false_iff.2 fun h => ?_
    have := List.all_eq_true.1 h _ hm
    rw [Piece.ok_ex, Ex.ok_bad (by decide) (by decide) (by decide) he] at this
    cases this
  have thr : ∀ ex f l Γ, (throwBody ex f (l ++ m)).ok Γ = false := by
    intro ex f l Γ
    simp only [throwBody, Stm.ok, Stms.ok, List.all_append, bad, Bool.and_false, Bool.false_and]
  have grd : ∀ x c l Γ, (guardBody x s c (l ++ m)).ok Γ = false := by
    intro x c l Γ
    simp only [guardBody, Stm.ok, Stms.ok, one, thr, Bool.and_false, Bool.false_and]
  have key : (k.body s).ok (ctx st.env) = false := by
    rcases hk with rfl | ⟨c, rfl | rfl | rfl⟩ | rfl
    · exact thr _ _ [] _
    · exact grd _ _ _ _
    · exact grd _ _ _ _
    · exact grd _ _ _ _
    · simp only [Mac.body, Stm.ok, Stms.ok, one, thr, Bool.false_and]
  rw [Mac.use, key]
  rfl

/-- `int ss = 5; HELPER_ASSERT_MSG(x==y, ss);` -/
example : (Mac.assertMsg (.op eqF (.var "x") (.var "y")) [.ex (.var "ss")]).use site { caller with env := ("ss", .num (some 5)) :: caller.env } = .ill :=
  C97_ss_refuted _ _ _ (.var "ss") [.ex (.var "ss")] (by simp [Ex.names]) (by simp) (.inr (.inl ⟨_, .inl rfl⟩))

/-- C97: a message with the name `assertion_result` or `first_time` shows 0, whatever the caller's variable is. -/
theorem C97_message_refuted (s : Site) (st : St) (e : Ex) (he : "assertion_result" ∉ e.names) (oe : e.ok (ctx st.env) = true)
    (ve : e.eval st.env = some 0) :
    (Mac.assertMsg e [.ex (.var "assertion_result")]).use s st =
      .thrown (cat (head s ++ ["Assertion `", s.src e, "' failed.\n  ", "0"])) ∧
    (Mac.warnOnce false [.ex (.var "first_time")]).use s st = .done { st with err := st.err ++ ["0"] } := by
  have hne : "ss" ≠ "assertion_result" := by decide
  have h1 : "ss" ∉ msgNames [Piece.lit s.loc] := by simp [msgNames, Piece.names]
  have h2 : "ss" ∉ msgNames (failedText s "Assertion" e ++ [.lit "\n", .lit "  "] ++ [.ex (.var "assertion_result")]) := by
    simp [msgNames, Piece.names, failedText, Ex.names]
  refine ⟨?_, ?_⟩
  · rw [Mac.use, if_pos]
    · simp only [Mac.body, guardBody, Stm.run, Stms.run, one, Ex.eval_skip he, ve, Init.conv, if_true, Ex.eval, lookup_self,
        throwBody_run _ _ _ _ h1 h2]
      simp only [msg, texts, Piece.text, texts_append, failedText, Ex.eval, lookup_self]
      exact congrArg R.thrown (failed_text_msg s "Assertion" e ["0"])
    · simp only [Mac.body, guardBody, Stm.ok, Stms.ok, one, Ex.ok_skip he, oe, throwBody_ok _ _ _ _ h1 h2]
      simp only [List.all_append, List.all_cons,
        List.all_nil, failedText, Piece.ok_lit, Piece.ok_ex, Ex.ok, lookup_self, BEq.rfl, Bool.and_true, Bool.true_and]
  · rw [Mac.use, if_pos]
    · runs [set]
      rfl
    · compiles []

/-- C97: the text of a stream called `assertion_result` cannot be written: the name is that of a truth value, and the macro does not
compile. -/
theorem C97_streamName_refuted (s : Site) (st : St) (e : Ex) :
    (Mac.assertMsg e [.str "assertion_result"]).use s st = .ill := by
  have hne : "ss" ≠ "assertion_result" := by decide
  rw [Mac.use, if_neg]
  simp [Mac.body, guardBody, throwBody, Stm.ok, Stms.ok, one, Piece.ok, lookup_skip _ _ hne, lookup_self]

example : (Mac.assertMsg (.lit 0) [.str "assertion_result"]).means site { caller with env := [("assertion_result", .stream "t")] } =
    .thrown "std::runtime_error in a.cpp:1: f: Assertion `x==y' failed.\n  t" := rfl

/-- C97: a predicate called `ok` is hidden by the variable of the macro: `HELPER_TEST_UNARY_PREDICATE(ok,x)` does not compile. -/
theorem C97_predicate_refuted (s : Site) (st : St) (a b : Ex) :
    (Mac.tUnary "ok" a).use s st = .ill ∧ (Mac.tBinary "ok" a b).use s st = .ill := by
  constructor <;>
  · rw [Mac.use, if_neg]
    simp [Mac.body, Stm.ok, Stms.ok, Ex.ok, Init.kind, lookup_self]

/-- With a function of the caller of that name, it should have passed. -/
example : (Mac.tUnary "ok" (.lit 3)).means site { caller with env := [("ok", .fn1 fun v => v)] } =
    .done (printed { caller with env := [("ok", .fn1 fun v => v)] } [3]) := rfl

end Helper.Names
