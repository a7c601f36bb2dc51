import Verif.Stmts.Lemmas
/-!
# What statement macros should do, and what they expand to
-/
set_option linter.unusedSectionVars false
namespace Helper.Stmts

/-! ## What the user means -/

variable {σ : Type}

/-- What a use of a macro should do. -/
def Mac.means (P : User σ) (st : St σ) : Mac → Option String × St σ
  | .note m => (none, { st with out := st.out ++ [m] })
  | .check c m => if P.cond c st.u then (none, st) else (some m, st)
  | .fail m => (some m, st)
  | .notImplemented m => (some m, st)
  | .once i m =>
    if st.used i then (none, st)
    else (none, { st with used := fun j => if j = i then true else st.used j, out := st.out ++ [m] })
  | .test t c g b => (none, { st with out := st.out ++ [t, if P.cond c st.u then g else b] })
  | .construct a t r => (none, { st with u := P.act a st.u, out := st.out ++ [t, r] })
  | .declare a t r => (none, { st with u := P.act a (P.act a st.u), out := st.out ++ [t, r] })

mutual
/-- What a statement should do. -/
def Src.means (P : User σ) : Src → St σ → Option String × St σ
  | .code a, st => (none, { st with u := P.act a st.u })
  | .use k _, st => k.means P st
  | .block l, st => l.means P st
  | .ifThen c t, st => if P.cond c st.u then t.means P st else (none, st)
  | .ifElse c t e, st => if P.cond c st.u then t.means P st else e.means P st
def Srcs.means (P : User σ) : Srcs → St σ → Option String × St σ
  | .nil, st => (none, st)
  | .cons s l, st =>
    match s.means P st with
    | (none, st') => l.means P st'
    | r => r
end

/-- The macro stands for more than one statement. -/
def Mac.isMany : Mac → Bool
  | .once _ _ | .construct _ _ _ | .declare _ _ _ => true
  | _ => false

/-- The text of the statement ends with the semicolon after a macro. -/
def Src.trail : Src → Bool
  | .use _ b => b
  | .ifThen _ t => t.trail
  | .ifElse _ _ e => e.trail
  | _ => false

/-- The statement ends with an `if` without `else`. -/
def Src.opens : Src → Bool
  | .ifThen _ _ => true
  | .ifElse _ _ e => e.opens
  | _ => false

mutual
/-- Every `else` belongs to the nearest `if`, and the macros of several statements stand directly in a block. -/
def Src.shape : Src → Bool
  | .code _ => true
  | .use k _ => !k.isMany
  | .block l => l.shape
  | .ifThen _ t => t.shape
  | .ifElse _ t e => t.shape && !t.opens && e.shape
def Srcs.shape : Srcs → Bool
  | .nil => true
  | .cons (.use _ _) l => l.shape
  | .cons s l => s.shape && l.shape
end

mutual
/-- No `else` after the semicolon of a macro. -/
def Src.semis : Src → Bool
  | .block l => l.semis
  | .ifThen _ t => t.semis
  | .ifElse _ t e => t.semis && !t.trail && e.semis
  | _ => true
def Srcs.semis : Srcs → Bool
  | .nil => true
  | .cons s l => s.semis && l.semis
end

mutual
/-- At most one macro that prints once in each block. -/
def Src.single : Src → Bool
  | .block l => l.single false
  | .ifThen _ t => t.single
  | .ifElse _ t e => t.single && e.single
  | _ => true
def Srcs.single : Srcs → Bool → Bool
  | .nil, _ => true
  | .cons (.use (.once _ _) _) l, here => !here && l.single true
  | .cons s l, here => s.single && l.single here
end

/-! ## The statements that the macros expand to -/

def Ss.one (s : S) : Ss := .cons s .nil

def Mac.stmt : Mac → S
  | .note m => .block (.one (.act (.emit m)))
  | .check c m => .block (.one (.ifThen (.notUsr c) (.block (.cons (.block (.one (.act (.raise m)))) (.one .empty)))))
  | .fail m => .block (.cons (.block (.one (.act (.raise m)))) (.one .empty))
  | .notImplemented m => .act (.raise m)
  | .test t c g b =>
    .block (.cons (.act (.emit t)) (.one (.ifElse (.usr c) (.block (.one (.act (.emit g)))) (.block (.one (.act (.emit b)))))))
  | _ => .empty

def semiIf (b : Bool) (l : Ss) : Ss := if b then .cons .empty l else l

mutual
def Src.exp : Src → S
  | .code a => .act (.usr a)
  | .use k _ => k.stmt
  | .block l => .block l.exp
  | .ifThen c t => .ifThen (.usr c) t.exp
  | .ifElse c t e => .ifElse (.usr c) t.exp e.exp
def Srcs.exp : Srcs → Ss
  | .nil => .nil
  | .cons (.use (.once i m) b) l =>
    .cons (.decl i) (.cons (.ifThen .flag (.block (.cons (.act .clear) (.one (.act (.emit m)))))) (semiIf b l.exp))
  | .cons (.use (.construct a t r) b) l =>
    .cons (.act (.emit t)) (.cons (.act (.usr a)) (.cons (.act (.emit r)) (semiIf b l.exp)))
  | .cons (.use (.declare a t r) b) l =>
    .cons (.block (.cons (.act (.emit t)) (.cons (.act (.usr a)) (.one (.act (.emit r)))))) (.cons (.act (.usr a)) (semiIf b l.exp))
  | .cons s l => .cons s.exp (semiIf s.trail l.exp)
end

def semiToks (b : Bool) : List Tok := if b then [.semi] else []

theorem semiIf_toks (b : Bool) (l : Ss) : (semiIf b l).toks = semiToks b ++ l.toks := by
  cases b <;> simp [semiIf, semiToks, Ss.toks, S.toks]

theorem stmt_toks {k : Mac} (h : k.isMany = false) : k.toks = k.stmt.toks := by
  cases k <;> first | rfl | cases h

mutual
theorem Src.exp_toks : ∀ s : Src, s.shape = true → s.semis = true → s.toks = s.exp.toks ++ semiToks s.trail
  | .code a, _, _ => rfl
  | .use k b, hs, _ => by
    simp only [Src.shape, Bool.not_eq_true'] at hs
    rw [Src.toks, stmt_toks hs]; rfl
  | .block l, hs, hm => by
    rw [Src.toks, l.exp_toks hs hm]; simp [Src.exp, S.toks, Src.trail, semiToks]
  | .ifThen c t, hs, hm => by
    rw [Src.toks, t.exp_toks hs hm]; simp [Src.exp, S.toks, Src.trail]
  | .ifElse c t e, hs, hm => by
    simp only [Src.shape, Src.semis, Bool.and_eq_true, Bool.not_eq_true'] at hs hm
    rw [Src.toks, t.exp_toks hs.1.1 hm.1.1, e.exp_toks hs.2 hm.2, hm.1.2]
    simp only [Src.exp, S.toks, Src.trail, semiToks, List.cons_append, List.append_assoc, List.nil_append, Bool.false_eq_true, if_false]
    rfl
theorem Srcs.exp_toks : ∀ l : Srcs, l.shape = true → l.semis = true → l.toks = l.exp.toks
  | .nil, _, _ => rfl
  | .cons (.use k b) l, hs, hm => by
    simp only [Srcs.shape, Srcs.semis, Bool.and_eq_true] at hs hm
    have ih := l.exp_toks hs hm.2
    rw [Srcs.toks, ih, Src.toks]
    cases k with
    | once i m => simp [Srcs.exp, Ss.toks, S.toks, Ss.one, semiIf_toks, Mac.toks]; rfl
    | construct a t r => simp [Srcs.exp, Ss.toks, S.toks, Ss.one, semiIf_toks, Mac.toks]; rfl
    | declare a t r => simp [Srcs.exp, Ss.toks, S.toks, Ss.one, semiIf_toks, Mac.toks]; rfl
    | _ => simp only [Srcs.exp, Ss.toks, semiIf_toks, Src.exp, Src.trail]; rw [stmt_toks rfl, List.append_assoc]; rfl
  | .cons (.code a) l, hs, hm => by
    simp only [Srcs.shape, Srcs.semis, Bool.and_eq_true] at hs hm
    rw [Srcs.toks, l.exp_toks hs.2 hm.2, Src.exp_toks _ hs.1 hm.1]; simp [Srcs.exp, Ss.toks, semiIf_toks]
  | .cons (.block a) l, hs, hm => by
    simp only [Srcs.shape, Srcs.semis, Bool.and_eq_true] at hs hm
    rw [Srcs.toks, l.exp_toks hs.2 hm.2, Src.exp_toks _ hs.1 hm.1]; simp [Srcs.exp, Ss.toks, semiIf_toks]
  | .cons (.ifThen c t) l, hs, hm => by
    simp only [Srcs.shape, Srcs.semis, Bool.and_eq_true] at hs hm
    rw [Srcs.toks, l.exp_toks hs.2 hm.2, Src.exp_toks _ hs.1 hm.1]; simp [Srcs.exp, Ss.toks, semiIf_toks]
  | .cons (.ifElse c t e) l, hs, hm => by
    simp only [Srcs.shape, Srcs.semis, Bool.and_eq_true] at hs hm
    rw [Srcs.toks, l.exp_toks hs.2 hm.2, Src.exp_toks _ hs.1 hm.1]; simp [Srcs.exp, Ss.toks, semiIf_toks]
end

theorem Src.exp_opens : ∀ s : Src, s.exp.opens = s.opens
  | .code _ => rfl
  | .use k _ => by cases k <;> rfl
  | .block _ => rfl
  | .ifThen _ _ => rfl
  | .ifElse _ _ e => e.exp_opens

theorem semiIf_nice (b : Bool) (l : Ss) : (semiIf b l).nice = l.nice := by cases b <;> simp [semiIf, Ss.nice, S.nice]

theorem stmt_nice (k : Mac) : k.stmt.nice = true := by cases k <;> rfl

mutual
theorem Src.exp_nice : ∀ s : Src, s.shape = true → s.exp.nice = true
  | .code _, _ => rfl
  | .use k _, _ => stmt_nice k
  | .block l, h => l.exp_nice h
  | .ifThen _ t, h => t.exp_nice h
  | .ifElse _ t e, h => by
    simp only [Src.shape, Bool.and_eq_true] at h
    simp [Src.exp, S.nice, t.exp_nice h.1.1, e.exp_nice h.2, t.exp_opens]
    simpa using h.1.2
theorem Srcs.exp_nice : ∀ l : Srcs, l.shape = true → l.exp.nice = true
  | .nil, _ => rfl
  | .cons (.use k b) l, h => by
    have ih := l.exp_nice h
    cases k <;> simp [Srcs.exp, Ss.nice, S.nice, Ss.one, semiIf_nice, ih, Src.exp, stmt_nice]
  | .cons (.code a) l, h => by
    simp only [Srcs.shape, Bool.and_eq_true] at h
    simp [Srcs.exp, Ss.nice, semiIf_nice, l.exp_nice h.2, Src.exp_nice _ h.1]
  | .cons (.block a) l, h => by
    simp only [Srcs.shape, Bool.and_eq_true] at h
    simp [Srcs.exp, Ss.nice, semiIf_nice, l.exp_nice h.2, Src.exp_nice _ h.1]
  | .cons (.ifThen c t) l, h => by
    simp only [Srcs.shape, Bool.and_eq_true] at h
    simp [Srcs.exp, Ss.nice, semiIf_nice, l.exp_nice h.2, Src.exp_nice _ h.1]
  | .cons (.ifElse c t e) l, h => by
    simp only [Srcs.shape, Bool.and_eq_true] at h
    simp [Srcs.exp, Ss.nice, semiIf_nice, l.exp_nice h.2, Src.exp_nice _ h.1]
end

/-! ## Scopes and execution -/

theorem semiIf_wf (b : Bool) (l : Ss) (v h : Bool) : (semiIf b l).wf v h = l.wf v h := by
  cases b <;> simp [semiIf, Ss.wf, S.wf]

theorem semiIf_run (P : User σ) (b : Bool) (l : Ss) (v : Option Nat) (st : St σ) : (semiIf b l).run P v st = l.run P v st := by
  cases b <;> simp [semiIf, Ss.run, S.run]

theorem stmt_wf (k : Mac) (v : Bool) : k.stmt.wf v = true := by cases k <;> rfl

theorem stmt_run (P : User σ) {k : Mac} (h : k.isMany = false) (v : Option Nat) (st : St σ) : k.stmt.run P v st = k.means P st := by
  cases k with
  | once => cases h
  | construct => cases h
  | declare => cases h
  | test t c g b =>
    cases hc : P.cond c st.u <;>
      simp [Mac.stmt, Mac.means, S.run, Ss.run, Ss.one, Cond.eval, Act.run, hc]
  | check c m =>
    cases hc : P.cond c st.u <;>
      simp [Mac.stmt, Mac.means, S.run, Ss.run, Ss.one, Cond.eval, Act.run, hc]
  | _ => simp [Mac.stmt, Mac.means, S.run, Ss.run, Ss.one, Act.run]

/-- A statement of the expansion that is not a declaration. -/
def S.isDecl : S → Bool
  | .decl _ => true
  | _ => false

theorem Ss.wf_cons {s : S} (h : s.isDecl = false) (l : Ss) (v b : Bool) : (Ss.cons s l).wf v b = (s.wf v && l.wf v b) := by
  cases s <;> first | rfl | cases h

theorem Ss.run_cons (P : User σ) {s : S} (h : s.isDecl = false) (l : Ss) (v : Option Nat) (st : St σ) :
    (Ss.cons s l).run P v st = match s.run P v st with
      | (none, st') => l.run P v st'
      | r => r := by
  cases s <;> first | rfl | cases h

theorem Src.exp_decl (s : Src) : s.exp.isDecl = false := by
  cases s with
  | use k b => cases k <;> rfl
  | _ => rfl

mutual
theorem Src.exp_wf : ∀ (s : Src) (v : Bool), s.shape = true → s.exp.wf v = s.single
  | .code _, _, _ => rfl
  | .use k _, v, _ => stmt_wf k v
  | .block l, v, h => l.exp_wf v false h
  | .ifThen _ t, v, h => by simp [Src.exp, S.wf, Cond.wf, t.exp_wf v h, Src.single]
  | .ifElse _ t e, v, h => by
    simp only [Src.shape, Bool.and_eq_true] at h
    simp [Src.exp, S.wf, Cond.wf, t.exp_wf v h.1.1, e.exp_wf v h.2, Src.single]
theorem Srcs.exp_wf : ∀ (l : Srcs) (v b : Bool), l.shape = true → l.exp.wf v b = l.single b
  | .nil, _, _, _ => rfl
  | .cons (.use k semi) l, v, b, h => by
    cases k with
    | once i m =>
      have ih := l.exp_wf true true h
      simp only [Srcs.exp, Ss.wf, S.wf, Cond.wf, Act.wf, Ss.one, semiIf_wf, ih, Srcs.single, Bool.true_and]
    | construct a t r =>
      have ih := l.exp_wf v b h
      simp only [Srcs.exp, Ss.wf, S.wf, Act.wf, semiIf_wf, ih, Srcs.single, Src.single, Bool.true_and]
    | declare a t r =>
      have ih := l.exp_wf v b h
      simp only [Srcs.exp, Ss.wf, S.wf, Act.wf, Ss.one, semiIf_wf, ih, Srcs.single, Src.single, Bool.true_and]
    | _ =>
      have ih := l.exp_wf v b h
      rw [Srcs.exp, Ss.wf_cons (Src.exp_decl _), semiIf_wf, ih]
      · simp [Src.exp, stmt_wf, Srcs.single, Src.single]
      all_goals (intros; rename_i h; cases h)
  | .cons (.code a) l, v, b, h => by
    simp only [Srcs.shape, Bool.and_eq_true] at h
    simp [Srcs.exp, Ss.wf_cons (Src.exp_decl _), semiIf_wf, l.exp_wf v b h.2, Src.exp_wf _ v h.1, Srcs.single]
  | .cons (.block a) l, v, b, h => by
    simp only [Srcs.shape, Bool.and_eq_true] at h
    simp [Srcs.exp, Ss.wf_cons (Src.exp_decl _), semiIf_wf, l.exp_wf v b h.2, Src.exp_wf _ v h.1, Srcs.single]
  | .cons (.ifThen c t) l, v, b, h => by
    simp only [Srcs.shape, Bool.and_eq_true] at h
    simp [Srcs.exp, Ss.wf_cons (Src.exp_decl _), semiIf_wf, l.exp_wf v b h.2, Src.exp_wf _ v h.1, Srcs.single]
  | .cons (.ifElse c t e) l, v, b, h => by
    simp only [Srcs.shape, Bool.and_eq_true] at h
    simp [Srcs.exp, Ss.wf_cons (Src.exp_decl _), semiIf_wf, l.exp_wf v b h.2, Src.exp_wf _ v h.1, Srcs.single]
end

mutual
theorem Src.exp_run (P : User σ) : ∀ (s : Src) (v : Option Nat) (st : St σ), s.shape = true → s.exp.run P v st = s.means P st
  | .code _, _, _, _ => rfl
  | .use k _, v, st, h => stmt_run P (by simpa [Src.shape] using h) v st
  | .block l, v, st, h => l.exp_run P v st h
  | .ifThen _ t, v, st, h => by simp only [Src.exp, S.run, Cond.eval, t.exp_run P v st h, Src.means]
  | .ifElse _ t e, v, st, h => by
    simp only [Src.shape, Bool.and_eq_true] at h
    simp only [Src.exp, S.run, Cond.eval, t.exp_run P v st h.1.1, e.exp_run P v st h.2, Src.means]
theorem Srcs.exp_run (P : User σ) : ∀ (l : Srcs) (v : Option Nat) (st : St σ), l.shape = true → l.exp.run P v st = l.means P st
  | .nil, _, _, _ => rfl
  | .cons (.use k semi) l, v, st, h => by
    have ih := fun v st => l.exp_run P v st h
    cases k with
    | once i m =>
      cases hu : st.used i <;>
        simp [Srcs.exp, Ss.run, S.run, Cond.eval, Act.run, Ss.one, semiIf_run, ih, Srcs.means, Src.means, Mac.means, hu]
    | construct a t r => simp [Srcs.exp, Ss.run, S.run, Act.run, semiIf_run, ih, Srcs.means, Src.means, Mac.means]
    | declare a t r => simp [Srcs.exp, Ss.run, S.run, Act.run, Ss.one, semiIf_run, ih, Srcs.means, Src.means, Mac.means]
    | _ =>
      rw [Srcs.exp, Ss.run_cons P (Src.exp_decl _), Src.exp, stmt_run P rfl]
      · simp only [semiIf_run, ih]; rfl
      all_goals (intros; rename_i h; cases h)
  | .cons (.code a) l, v, st, h => by
    simp only [Srcs.shape, Bool.and_eq_true] at h
    rw [Srcs.exp, Ss.run_cons P (Src.exp_decl _), Src.exp_run P _ v st h.1]
    · simp only [semiIf_run, fun st => l.exp_run P v st h.2]; rfl
    all_goals (intros; rename_i h; cases h)
  | .cons (.block a) l, v, st, h => by
    simp only [Srcs.shape, Bool.and_eq_true] at h
    rw [Srcs.exp, Ss.run_cons P (Src.exp_decl _), Src.exp_run P _ v st h.1]
    · simp only [semiIf_run, fun st => l.exp_run P v st h.2]; rfl
    all_goals (intros; rename_i h; cases h)
  | .cons (.ifThen c t) l, v, st, h => by
    simp only [Srcs.shape, Bool.and_eq_true] at h
    rw [Srcs.exp, Ss.run_cons P (Src.exp_decl _), Src.exp_run P _ v st h.1]
    · simp only [semiIf_run, fun st => l.exp_run P v st h.2]; rfl
    all_goals (intros; rename_i h; cases h)
  | .cons (.ifElse c t e) l, v, st, h => by
    simp only [Srcs.shape, Bool.and_eq_true] at h
    rw [Srcs.exp, Ss.run_cons P (Src.exp_decl _), Src.exp_run P _ v st h.1]
    · simp only [semiIf_run, fun st => l.exp_run P v st h.2]; rfl
    all_goals (intros; rename_i h; cases h)
end

end Helper.Stmts
