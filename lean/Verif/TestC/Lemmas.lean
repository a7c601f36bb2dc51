import Verif.TestC.Spec
/-! # The macros against the spec -/
set_option linter.unusedSectionVars false
namespace Helper.TestC

open Helper.Macro Spec

variable {σ V α β : Type}

def ofOut : Out α → R α
  | .val a => .val a
  | .thrown t => .thrown t

/-- The model runs as the spec tells, unless the counter overflows. -/
def Good (m : M σ Unit) (r : S σ) : Prop := ∀ w : W σ,
  (w.fails + (r w.u).total < 2 ^ 31 →
    m w = (ofOut (r w.u).out, ⟨(r w.u).u, w.fails + (r w.u).total, w.skipped + (r w.u).skipped⟩)) ∧
  (w.fails < 2 ^ 31 → 2 ^ 31 ≤ w.fails + (r w.u).total → (m w).1 = .overflow)

theorem good_plain (e : Exp σ Unit) : Good (M.lift e) (plain e) := by
  intro w
  refine ⟨fun _ => ?_, fun h1 h2 => ?_⟩
  · simp only [M.lift, plain, Run.total]
    rcases e w.u with ⟨_ | _, u⟩ <;> rfl
  · simp [plain, Run.total] at h2; omega

theorem good_of_eq {m : M σ Unit} {r r' : S σ} (h : Good m r) (e : r = r') : Good m r' := e ▸ h

theorem good_seq {m m' : M σ Unit} {r r' : S σ} (h : Good m r) (h' : Good m' r') :
    Good (m.bind fun _ => m') (andThen r r') := by
  intro w
  obtain ⟨h1, h2⟩ := h w
  simp only [andThen, M.bind]
  cases ho : (r w.u).out with
  | thrown t =>
    simp only
    refine ⟨fun hl => ?_, fun hw hl => ?_⟩
    · rw [h1 hl, ho]; rfl
    · have := h2 hw hl
      rcases hm : m w with ⟨x, w'⟩
      rw [hm] at this
      simp only at this
      subst this
      rfl
  | val a =>
    simp only
    by_cases hl : w.fails + (r w.u).total < 2 ^ 31
    · have e := h1 hl
      rw [ho] at e
      obtain ⟨h3, h4⟩ := h' ⟨(r w.u).u, w.fails + (r w.u).total, w.skipped + (r w.u).skipped⟩
      rw [e]
      simp only [ofOut]
      refine ⟨fun hs => ?_, fun hw hs => ?_⟩
      · have : w.fails + (r w.u).total + (r' (r w.u).u).total < 2 ^ 31 := by
          simp only [Run.total] at hs ⊢; omega
        rw [h3 this]
        simp only [Run.total]
        congr 2 <;> omega
      · refine h4 hl ?_
        simp only [Run.total] at hs ⊢; omega
    · refine ⟨fun hs => ?_, fun hw hs => ?_⟩
      · simp only [Run.total] at hs hl; omega
      · have := h2 hw (by omega)
        rcases hm : m w with ⟨x, w'⟩
        rw [hm] at this
        simp only at this
        subst this
        rfl

/-- Value-carrying prefix. -/
theorem good_bind {e : Exp σ α} {f : α → M σ Unit} {g : α → S σ} (h : ∀ a, Good (f a) (g a)) :
    Good ((M.lift e).bind f) (fun s => match e s with
      | (.val a, s') => g a s'
      | (.thrown t, s') => ⟨0, 0, 0, .thrown t, s'⟩) := by
  intro w
  simp only [M.bind, M.lift]
  rcases he : e w.u with ⟨_ | _, u⟩
  · simp only
    exact h _ { w with u := u }
  · simp only [ofOut]
    refine ⟨fun _ => rfl, fun h1 h2 => ?_⟩
    simp [Run.total] at h2; omega

theorem good_incr : Good (incr : M σ Unit) (fun s => ⟨1, 0, 0, .val (), s⟩) := by
  intro w
  simp only [incr, Run.total, ofOut]
  refine ⟨fun h => ?_, fun _ h => ?_⟩
  · rw [if_pos (by omega)]; rfl
  · rw [if_neg (by omega)]

theorem good_pure : Good (M.pure () : M σ Unit) (plain (evs [])) := by
  intro w
  simp only [plain, evs, Run.total, M.pure, ofOut]
  refine ⟨fun _ => rfl, fun h1 h2 => ?_⟩
  omega

theorem good_show (e : Exp σ α) : Good (show_ e) (plain (ev e)) := by
  have := good_bind (e := e) (f := fun _ => M.pure ()) (g := fun _ => plain (evs [])) fun _ => good_pure
  refine good_of_eq this ?_
  funext s
  simp only [plain, ev, evs]
  rcases e s with ⟨_ | _, u⟩ <;> rfl

theorem plain_evs_cons (e : Exp σ Unit) (es : List (Exp σ Unit)) : plain (evs (e :: es)) = andThen (plain e) (plain (evs es)) := by
  funext s
  simp only [plain, evs, andThen]
  rcases e s with ⟨_ | _, u⟩ <;> rfl

theorem good_last (e : Exp σ α) : Good (show_ e) (plain (evs [ev e])) := by
  refine good_of_eq (good_show e) ?_
  funext s
  simp only [plain, evs]
  rcases ev e s with ⟨_ | _, u⟩ <;> rfl

theorem good_cons {e : Exp σ α} {m : M σ Unit} {es : List (Exp σ Unit)} (h : Good m (plain (evs es))) :
    Good ((show_ e).bind fun _ => m) (plain (evs (ev e :: es))) := by
  rw [plain_evs_cons]
  exact good_seq (good_show e) h

/-- A failing branch. -/
theorem good_fails {m : M σ Unit} {es : List (Exp σ Unit)} (h : Good m (plain (evs es))) :
    Good (incr.bind fun _ => m) (fun s => { plain (evs es) s with failed := 1 }) := by
  refine good_of_eq (good_seq good_incr h) ?_
  funext s
  simp [andThen, plain]

theorem good_incr' : Good (incr : M σ Unit) (fun s => { plain (evs []) s with failed := 1 }) := by
  refine good_of_eq good_incr ?_
  funext s
  rfl

theorem good_chk {v : Exp σ Bool} {ok ko : M σ Unit} {es fs : List (Exp σ Unit)} (h1 : Good ok (plain (evs es)))
    (h2 : Good ko (fun s => { plain (evs fs) s with failed := 1 })) :
    Good ((M.lift v).bind fun b => if b then ok else ko) (chk v es fs) := by
  have := good_bind (e := v) (f := fun b => if b then ok else ko)
    (g := fun b => if b then plain (evs es) else fun s => { plain (evs fs) s with failed := 1 }) (by
      intro b; cases b
      · simpa using h2
      · simpa using h1)
  refine good_of_eq this ?_
  funext s
  simp only [chk]
  rcases v s with ⟨b | _, u⟩
  · cases b <;> rfl
  · rfl

/-- Assoc of prefixes: values computed before the verdict. -/
theorem lift_bind (e : Exp σ α) (f : α → Exp σ β) (k : β → M σ Unit) :
    ((M.lift e).bind fun a => (M.lift (f a)).bind k) = (M.lift (e.bind f)).bind k := by
  funext w
  simp only [M.bind, M.lift, Exp.bind]
  rcases e w.u with ⟨_ | _, u⟩ <;> rfl

theorem show_lift (e : Exp σ α) (f : Exp σ β) (k : β → M σ Unit) :
    ((show_ e).bind fun _ => (M.lift f).bind k) = (M.lift ((ev e).bind fun _ => f)).bind k := by
  funext w
  simp only [M.bind, M.lift, Exp.bind, show_, ev, M.pure]
  rcases e w.u with ⟨_ | _, u⟩ <;> rfl

theorem good_catching {m : M σ Unit} {r : S σ} (h : Good m r) : Good (catching m) (noThrow r) := by
  intro w
  obtain ⟨h1, h2⟩ := h w
  simp only [catching, noThrow, M.tryCatch]
  rcases hr : r w.u with ⟨f, e, k, o, u⟩
  rw [hr] at h1 h2
  cases o with
  | val a =>
    simp only
    refine ⟨fun hl => ?_, fun hw hl => ?_⟩
    · rw [h1 hl]; rfl
    · have := h2 hw hl
      rcases hm : m w with ⟨x, w'⟩
      rw [hm] at this; simp only at this; subst this; rfl
  | thrown t =>
    simp only [Run.total] at *
    by_cases hl : w.fails + (f + e) < 2 ^ 31
    · rw [h1 hl]
      cases t <;> simp only [ofOut, incr] <;> refine ⟨fun hs => ?_, fun hw hs => ?_⟩
      · rw [if_pos (by omega)]; congr 2; omega
      · rw [if_neg (by omega)]
      · rw [if_pos (by omega)]; congr 2; omega
      · rw [if_neg (by omega)]
    · refine ⟨fun hs => by omega, fun hw hs => ?_⟩
      have := h2 hw (by omega)
      rcases hm : m w with ⟨x, w'⟩
      rw [hm] at this; simp only at this; subst this; rfl

theorem good_call {m : M σ Unit} {r : S σ} (h : Good m r) : Good (call m) (callS r) := by
  intro w
  obtain ⟨h1, h2⟩ := h w
  simp only [call, callS, M.tryCatch]
  rcases hr : r w.u with ⟨f, e, k, o, u⟩
  rw [hr] at h1 h2
  rcases o with a | ⟨n | n⟩
  · simp only
    refine ⟨fun hl => ?_, fun hw hl => ?_⟩
    · rw [h1 hl]; rfl
    · have := h2 hw hl
      rcases hm : m w with ⟨x, w'⟩
      rw [hm] at this; simp only at this; subst this; rfl
  · simp only [Run.total] at *
    by_cases hl : w.fails + (f + e) < 2 ^ 31
    · rw [h1 hl]
      simp only [ofOut, incr]
      refine ⟨fun hs => ?_, fun hw hs => ?_⟩
      · rw [if_pos (by omega)]
        congr 2
      · rw [if_neg (by omega)]
    · refine ⟨fun hs => by omega, fun hw hs => ?_⟩
      have := h2 hw (by omega)
      rcases hm : m w with ⟨x, w'⟩
      rw [hm] at this; simp only at this; subst this; rfl
  · simp only
    refine ⟨fun hl => ?_, fun hw hl => ?_⟩
    · rw [h1 hl]; rfl
    · have := h2 hw hl
      rcases hm : m w with ⟨x, w'⟩
      rw [hm] at this; simp only at this; subst this; rfl

/-- `try { m; ++failures } catch`: the common part of `HELPER_TEST_THROWS` and `HELPER_TEST_FAIL`. -/
theorem good_expect {m : M σ Unit} {r : S σ} (h : Good m r) (hd : Thrown → Option (M σ Unit)) (sp : Thrown → S σ)
    (hsp : ∀ t k, hd t = some k → Good k (sp t)) (hno : ∀ t, hd t = none → sp t = fun s => ⟨0, 0, 0, .thrown t, s⟩) :
    Good ((m.bind fun _ => incr).tryCatch hd) (fun s => match r s with
      | ⟨f, e, k, .val _, u⟩ => ⟨f + 1, e, k, .val (), u⟩
      | ⟨f, e, k, .thrown t, u⟩ => let q := sp t u; ⟨f + q.failed, e + q.ended, k + q.skipped, q.out, q.u⟩) := by
  intro w
  obtain ⟨h1, h2⟩ := h w
  simp only [M.tryCatch, M.bind]
  rcases hr : r w.u with ⟨f, e, k, o, u⟩
  rw [hr] at h1 h2
  simp only [Run.total] at *
  by_cases hl : w.fails + (f + e) < 2 ^ 31
  · rw [h1 hl]
    rcases o with a | t
    · simp only [ofOut, incr]
      refine ⟨fun hs => ?_, fun hw hs => ?_⟩
      · rw [if_pos (by omega)]
        simp only
        congr 2; omega
      · rw [if_neg (by omega)]
    · simp only [ofOut]
      cases hh : hd t with
      | none =>
        simp only [hno t hh]
        exact ⟨fun _ => rfl, fun hw hs => by omega⟩
      | some kk =>
        simp only
        obtain ⟨h3, h4⟩ := hsp t kk hh ⟨u, w.fails + (f + e), w.skipped + k⟩
        simp only [Run.total] at h3 h4
        refine ⟨fun hs => ?_, fun hw hs => h4 hl (by omega)⟩
        rw [h3 (by omega)]
        congr 2 <;> omega
  · refine ⟨fun hs => ?_, fun hw hs => ?_⟩
    · rcases o with a | t <;> simp only at hs <;> omega
    · have := h2 hw (by omega)
      rcases hm : m w with ⟨x, w'⟩
      rw [hm] at this; simp only at this; subst this; rfl

theorem good_done : Good (M.pure () : M σ Unit) (fun s => ⟨0, 0, 0, .val (), s⟩) := by
  intro w
  simp only [M.pure, Run.total, ofOut]
  exact ⟨fun _ => rfl, fun h1 h2 => by omega⟩

theorem good_throws {m : M σ Unit} {r : S σ} (error : Thrown → Bool) (h : Good m r) :
    Good (throws error m) (throwsS error r) := by
  refine good_of_eq (good_expect h _ (fun t => if error t then fun s => ⟨0, 0, 0, .val (), s⟩ else match t with
    | .std _ => fun s => ⟨1, 0, 0, .val (), s⟩
    | .other n => fun s => ⟨0, 0, 0, .thrown (.other n), s⟩) ?_ ?_) ?_
  · intro t k hk
    cases he : error t with
    | true => simp [he] at hk; subst hk; simpa using good_done
    | false =>
      cases t with
      | std n => simp [he] at hk; subst hk; simpa using good_incr
      | other n => simp [he] at hk
  · intro t hk
    cases he : error t with
    | true => simp [he] at hk
    | false =>
      cases t with
      | std n => simp [he] at hk
      | other n => simp
  · funext s
    simp only [throwsS]
    rcases r s with ⟨f, e, k, _ | t, u⟩
    · rfl
    · cases he : error t with
      | true => simp [he]
      | false => cases t <;> simp [he]

theorem good_fail {m : M σ Unit} {r : S σ} (h : Good m r) : Good (fail m) (failS r) := by
  refine good_of_eq (good_expect h _ (fun _ s => ⟨0, 0, 0, .val (), s⟩) ?_ ?_) ?_
  · intro t k hk; cases hk; exact good_done
  · intro t hk; cases hk
  · funext s
    simp only [failS]
    rcases r s with ⟨f, e, k, _ | t, u⟩ <;> rfl

theorem good_loop {m : M σ Unit} {r : S σ} (h : Good m r) : ∀ n, Good (loopM m n) (times r n)
  | 0 => good_pure
  | n + 1 => good_seq h (good_loop h n)

theorem good_exec (rtl : Bool) : ∀ p : Stmt σ V, Good (exec rtl p) (run rtl p)
  | .code e => good_plain e
  | .seq a b => good_seq (good_exec rtl a) (good_exec rtl b)
  | .ite c a b => by
    have := good_bind (e := c) (f := fun r => if r then exec rtl a else exec rtl b)
      (g := fun r => if r then run rtl a else run rtl b) (by
        intro r; cases r
        · simpa using good_exec rtl b
        · simpa using good_exec rtl a)
    refine good_of_eq this ?_
    funext s
    simp only [run]
    rcases c s with ⟨b | _, u⟩
    · cases b <;> rfl
    · rfl
  | .loop n a => fun w => good_loop (good_exec rtl a) (n w.u) w
  | .testClass a => good_exec rtl a
  | .call a => good_call (good_exec rtl a)
  | .skip => by
    intro w
    simp only [exec, skip, run, Run.total, ofOut]
    exact ⟨fun _ => rfl, fun h1 h2 => by omega⟩
  | .execute a => good_exec rtl a
  | .try_ a => good_catching (good_exec rtl a)
  | .print e => good_show e
  | .evaluate e => good_catching (good_show e)
  | .assert e => good_chk good_pure good_incr'
  | .checkWarn eq e x => by
    have := good_bind (e := rel rtl eq e x) (f := fun ok => if ok then M.pure () else (show_ x).bind fun _ => show_ e)
      (g := fun ok => if ok then plain (evs []) else plain (evs [ev x, ev e])) (by
        intro r; cases r
        · simpa using good_cons (good_last e)
        · simpa using good_pure)
    refine good_of_eq this ?_
    funext s
    simp only [run]
    rcases rel rtl eq e x s with ⟨b | _, u⟩
    · cases b <;> rfl
    · rfl
  | .check eq e x => good_chk good_pure (good_fails (good_cons (good_last e)))
  | .same eq e1 e2 => good_chk good_pure (good_fails (good_cons (good_cons (good_cons (good_last e2)))))
  | .sameAs eq e x => good_chk good_pure (good_fails (good_cons (good_cons (good_last x))))
  | .equal eq e1 e2 => good_chk good_pure (good_fails (good_cons (good_cons (good_cons (good_last e2)))))
  | .notEqual eq e1 e2 => by
    have := good_chk (v := (rel rtl eq e1 e2).bind fun b => .pure (!b)) (σ := σ) good_pure
      (good_fails (good_cons (e := e1) (good_cons (e := e2) (good_cons (e := e1) (good_last e2)))))
    have e : exec rtl (Stmt.notEqual eq e1 e2) = ((M.lift ((rel rtl eq e1 e2).bind fun b => .pure (!b))).bind fun b => if b then M.pure () else
        incr.bind fun _ => (show_ e1).bind fun _ => (show_ e2).bind fun _ => (show_ e1).bind fun _ => show_ e2) := by
      funext w
      simp only [exec, notEqual, M.bind, M.lift, rel]
      rcases he : ((e1.both rtl e2).bind fun p => eq p.1 p.2) w.u with ⟨b | _, u⟩
      · simp only [Exp.bind] at he ⊢
        simp only [he, Exp.pure]
        cases b <;> rfl
      · simp only [Exp.bind] at he ⊢
        simp only [he]
    rw [e]
    exact this
  | .equals eq e x => good_chk good_pure (good_fails (good_cons (good_cons (good_last x))))
  | .within d le e x t => by
    have := good_chk (v := ((Exp.both rtl e x).bind fun p => d p.1 p.2).bind fun a => t.bind fun b => le a b) good_pure
      (good_fails (good_cons (e := e) (good_cons (e := x) (good_cons (e := t) (good_cons (e := e) (good_cons (e := x) (good_last t)))))))
    rw [← lift_bind] at this
    exact this
  | .less lt e x => good_chk good_pure (good_fails (good_cons (good_last e)))
  | .unaryPredicate p a => by
    have := good_chk (v := (ev a).bind fun _ => a.bind p) good_pure (good_fails (good_last a))
    rw [← show_lift] at this
    exact this
  | .binaryPredicate p a1 a2 => by
    have := good_chk (v := (evs [ev a1, ev a2]).bind fun _ => rel rtl p a1 a2) good_pure (good_fails (good_cons (e := a1) (good_last a2)))
    have e : ((evs [ev a1, ev a2]).bind fun _ => rel rtl p a1 a2) = ((ev a1).bind fun _ => (ev a2).bind fun _ => rel rtl p a1 a2) := by
      funext s
      simp only [Exp.bind, evs]
      rcases ev a1 s with ⟨_ | _, u⟩
      · simp only
        rcases ev a2 u with ⟨_ | _, u⟩ <;> rfl
      · rfl
    rw [e, ← show_lift, ← show_lift] at this
    rw [← e] at this
    exact this
  | .compare c e x => by
    have := good_chk (v := (ev e).bind fun _ => rel rtl c e x) (good_last x) (good_fails (good_cons (e := x) (good_cons (e := e) (good_last x))))
    rw [← show_lift] at this
    exact this
  | .resultCompare c e x => by
    have := good_chk (v := e.bind fun a => x.bind fun b => c a b) (good_last x) (good_fails (good_last x))
    rw [← lift_bind] at this
    exact this
  | .declare c => good_seq (good_catching (good_plain c)) (good_plain c)
  | .construct c => good_plain c
  | .assign a => good_catching (good_plain a)
  | .throws error a => good_throws error (good_exec rtl a)
  | .fail a => good_fail (good_exec rtl a)
  | .staticAssert b => by
    intro w
    simp only [exec, staticAssert, run, chk, Exp.pure, plain, evs, Run.total]
    cases b
    · simp only [incr, ofOut, Bool.false_eq_true, if_false]
      refine ⟨fun h => ?_, fun _ h => ?_⟩
      · rw [if_pos (by omega)]; rfl
      · rw [if_neg (by omega)]
    · simp only [M.pure, ofOut, if_true]
      exact ⟨fun _ => rfl, fun h1 h2 => by omega⟩

end Helper.TestC
