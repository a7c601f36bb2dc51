import Verif.TestC.Output
set_option linter.unusedSectionVars false
/-!
# Properties C90 and C91: what the test macros report
-/
namespace Helper.TestC

open Helper.Macro Spec

variable {σ V α β : Type}

/-! ## The texts do not change what a program does -/

/-- `m` does what `m'` does, apart from writing. -/
def Erases (m : MT σ V α) (m' : M σ α) : Prop := ∀ wt, (m wt).1 = (m' wt.w).1 ∧ (m wt).2.w = (m' wt.w).2

namespace Erases

theorem silent (m : M σ α) : Erases (V := V) (MT.silent m) m := fun _ => ⟨rfl, rfl⟩

theorem lift (e : Exp σ α) : Erases (V := V) (MT.lift e) (M.lift e) := silent _

theorem pure (a : α) : Erases (V := V) (MT.pure a) (M.pure (σ := σ) a) := fun _ => ⟨rfl, rfl⟩

theorem cout (ts : List (Tok V)) : Erases (TestC.cout ts) (M.pure (σ := σ) ()) := fun _ => ⟨rfl, rfl⟩

theorem cerr (ts : List (Tok V)) : Erases (TestC.cerr ts) (M.pure (σ := σ) ()) := fun _ => ⟨rfl, rfl⟩

theorem bind {m : MT σ V α} {m' : M σ α} {f : α → MT σ V β} {f' : α → M σ β} (h : Erases m m')
    (hf : ∀ a, Erases (f a) (f' a)) : Erases (m.bind f) (m'.bind f') := by
  intro wt
  have h1 := h wt
  unfold MT.bind M.bind
  match hm : m wt with
  | (.val a, w1) =>
    rw [hm] at h1
    match hm' : m' wt.w with
    | (r, w2) =>
      rw [hm'] at h1
      obtain ⟨h2, h3⟩ := h1
      simp only at h2 h3
      subst h2 h3
      exact hf a w1
  | (.thrown t, w1) =>
    rw [hm] at h1
    match hm' : m' wt.w with
    | (r, w2) => rw [hm'] at h1; obtain ⟨h2, h3⟩ := h1; simp only at h2 h3; subst h2 h3; exact ⟨rfl, rfl⟩
  | (.overflow, w1) =>
    rw [hm] at h1
    match hm' : m' wt.w with
    | (r, w2) => rw [hm'] at h1; obtain ⟨h2, h3⟩ := h1; simp only at h2 h3; subst h2 h3; exact ⟨rfl, rfl⟩

theorem pure_bind (a : α) (f : α → M σ β) : (M.pure (σ := σ) a).bind f = f a := rfl

/-- Something that only writes may stand before or after. -/
theorem first {o : MT σ V Unit} {m : MT σ V α} {m' : M σ α} (ho : Erases o (M.pure ())) (h : Erases m m') :
    Erases (o.bind fun _ => m) m' := by
  have := bind ho (f' := fun _ => m') fun _ => h
  rwa [pure_bind] at this

theorem bind_pure (m : M σ Unit) : m.bind (fun _ => M.pure ()) = m := by
  funext w
  unfold M.bind
  match m w with
  | (.val (), w1) => rfl
  | (.thrown t, w1) => rfl
  | (.overflow, w1) => rfl

theorem last {o m : MT σ V Unit} {m' : M σ Unit} (h : Erases m m') (ho : Erases o (M.pure ())) :
    Erases (m.bind fun _ => o) m' := by
  have := bind h (f' := fun _ => M.pure ()) fun _ => ho
  rwa [bind_pure] at this

theorem tryCatch {m : MT σ V Unit} {m' : M σ Unit} {h : Thrown → Option (MT σ V Unit)} {h' : Thrown → Option (M σ Unit)}
    (hm : Erases m m')
    (hh : ∀ t, (h t = none ∧ h' t = none) ∨ ∃ k k', h t = some k ∧ h' t = some k' ∧ Erases k k') :
    Erases (m.tryCatch h) (m'.tryCatch h') := by
  intro wt
  have h1 := hm wt
  unfold MT.tryCatch M.tryCatch
  match e : m wt, e' : m' wt.w with
  | (r, w1), (r', w2) =>
    rw [e, e'] at h1
    obtain ⟨h2, h3⟩ := h1
    simp only at h2 h3
    subst h2 h3
    match r with
    | .val a => exact ⟨rfl, rfl⟩
    | .overflow => exact ⟨rfl, rfl⟩
    | .thrown t =>
      rcases hh t with ⟨a, b⟩ | ⟨k, k', a, b, c⟩
      · simp only [a, b]; exact ⟨trivial, trivial⟩
      · simp only [a, b]; exact c w1

theorem ite {b : Bool} {m n : MT σ V α} {m' n' : M σ α} (h1 : Erases m m') (h2 : Erases n n') :
    Erases (if b then m else n) (if b then m' else n') := by
  cases b
  · exact h2
  · exact h1

theorem coutV (e : Exp σ V) : Erases (TestC.coutV e) (show_ e) :=
  bind (lift e) fun _ => cout _

theorem count : Erases (V := V) TestC.count (incr : M σ Unit) := silent _

theorem loop {m : MT σ V Unit} {m' : M σ Unit} (h : Erases m m') : ∀ n, Erases (loopT m n) (loopM m' n)
  | 0 => pure ()
  | n + 1 => bind h fun _ => loop h n

theorem catching (l : Nat) (msg : List (Tok V)) {m : MT σ V Unit} {m' : M σ Unit} (h : Erases m m') :
    Erases (catchingT l msg m) (TestC.catching m') := by
  refine tryCatch h fun t => .inr ?_
  cases t with
  | std n => exact ⟨_, _, rfl, rfl, last count (first (cout _) (cerr _))⟩
  | other n => exact ⟨_, _, rfl, rfl, last count (first (cout _) (cerr _))⟩

end Erases

theorem MT.assoc {γ : Type} (m : MT σ V α) (f : α → MT σ V β) (g : β → MT σ V γ) :
    (m.bind f).bind g = m.bind fun a => (f a).bind g := by
  funext w
  simp only [MT.bind]
  match m w with
  | (.val a, w1) => rfl
  | (.thrown t, w1) => rfl
  | (.overflow, w1) => rfl

theorem M.assoc {γ : Type} (m : M σ α) (f : α → M σ β) (g : β → M σ γ) :
    (m.bind f).bind g = m.bind fun a => (f a).bind g := by
  funext w
  simp only [M.bind]
  match m w with
  | (.val a, w1) => rfl
  | (.thrown t, w1) => rfl
  | (.overflow, w1) => rfl

theorem lift_bind_pure (e : Exp σ α) : (M.lift (e.bind fun _ => .pure ())) = (M.lift e).bind fun _ => M.pure () := by
  funext w
  simp only [M.lift, Exp.bind, M.bind, M.pure, Exp.pure]
  rcases e w.u with ⟨_ | _, u⟩ <;> rfl

theorem lift_assoc (e : Exp σ α) (f : α → Exp σ β) : (M.lift (e.bind f)) = (M.lift e).bind fun a => M.lift (f a) := by
  funext w
  simp only [M.lift, Exp.bind, M.bind]
  rcases e w.u with ⟨_ | _, u⟩ <;> rfl

/-- Takes two programs apart that run the same expressions. -/
macro "erase" : tactic => `(tactic| (
  try simp only [coutV, cerrV, MT.assoc, M.assoc, show_, Erases.pure_bind]
  repeat' first
    | exact Erases.cout _
    | exact Erases.cerr _
    | exact Erases.count
    | exact Erases.pure _
    | exact Erases.lift _
    | refine Erases.first (Erases.cout _) ?_
    | refine Erases.first (Erases.cerr _) ?_
    | refine Erases.bind (Erases.lift _) fun _ => ?_
    | refine Erases.ite ?_ ?_
    | refine Erases.bind Erases.count fun _ => ?_
    | refine Erases.last Erases.count ?_))

/-- C90: the texts do not change what a program does. -/
theorem execT_erase (rtl : Bool) : ∀ p : TStmt σ V, Erases (execT rtl p) (exec rtl p.erase) := by
  intro p
  induction p with
  | code e => exact .lift e
  | seq a b iha ihb => exact .bind iha fun _ => ihb
  | ite c a b iha ihb => exact .bind (.lift c) fun r => .ite iha ihb
  | loop n a ih => exact fun wt => (Erases.loop ih (n wt.w.u)) wt
  | testClass l a ih => exact .first (.cout _) (.first (fun _ => ⟨rfl, rfl⟩) ih)
  | title e =>
    simp only [execT, titleT, TStmt.erase, exec, print]
    refine .first (.cout _) (.first (fun _ => ⟨rfl, rfl⟩) ?_)
    erase
  | comment e => simp only [execT, TStmt.erase, exec, print, commentT]; erase
  | warn e => simp only [execT, TStmt.erase, exec, print, warnT]; erase
  | notify e => simp only [execT, TStmt.erase, exec, print, warnT]; erase
  | call l a ih =>
    refine .first (.cout _) (.tryCatch ih fun t => ?_)
    cases t with
    | std n => exact .inr ⟨_, _, rfl, rfl, .last .count (.first (.cout _) (.first (.cerr _) (.cout _)))⟩
    | other n => exact .inl ⟨rfl, rfl⟩
  | skip l => exact .first (.cout _) (.last (.silent _) (.cout _))
  | execute l a ih =>
    simp only [execT, executeT, TStmt.erase, exec, execute]
    exact .first (.cout _) (.last ih (.cout _))
  | try_ l a ih => exact .first (.cout _) (.catching _ _ (.last ih (.cout _)))
  | print l e => simp only [execT, TStmt.erase, exec, print, printT]; erase
  | evaluate l e => exact .first (.cout _) (.catching _ _ (.last (.coutV e) (.cout _)))
  | assert l e => simp only [execT, TStmt.erase, exec, assert, assertT]; erase
  | checkWarn l eq e x =>
    simp only [execT, TStmt.erase, exec, checkWarn, checkWarnT, testingCheck, testingCheckT, lift_assoc]; erase
  | check l eq e x =>
    simp only [execT, TStmt.erase, exec, check, checkT, testingCheck, testingCheckT, lift_assoc]; erase
  | same l eq e1 e2 => simp only [execT, TStmt.erase, exec, same, sameT, twoValues, twoValuesErr]; erase
  | sameAs l eq e x => simp only [execT, TStmt.erase, exec, sameAs, sameAsT, oneValue]; erase
  | equal l eq e1 e2 => simp only [execT, TStmt.erase, exec, equal, equalT, twoValues, twoValuesErr]; erase
  | notEqual l eq e1 e2 => simp only [execT, TStmt.erase, exec, notEqual, notEqualT, twoValues, twoValuesErr]; erase
  | equals l eq e x => simp only [execT, TStmt.erase, exec, equals, equalsT, oneValue]; erase
  | within l d le e x t => simp only [execT, TStmt.erase, exec, within, withinT]; erase
  | less l lt e x => simp only [execT, TStmt.erase, exec, less, lessT, oneValue]; erase
  | unaryPredicate l p a => simp only [execT, TStmt.erase, exec, unaryPredicate, unaryPredicateT]; erase
  | binaryPredicate l p a1 a2 => simp only [execT, TStmt.erase, exec, binaryPredicate, binaryPredicateT]; erase
  | compare l c e x => simp only [execT, TStmt.erase, exec, compare, compareT]; erase
  | resultCompare l c e x => simp only [execT, TStmt.erase, exec, resultCompare, resultCompareT]; erase
  | declare h l c =>
    simp only [execT, declareT, TStmt.erase, exec, declare]
    refine .first (.cout _) (.bind (.catching _ _ ?_) fun _ => ?_)
    · rw [lift_bind_pure]; erase
    · rw [lift_bind_pure]; erase
  | construct b l c =>
    simp only [execT, TStmt.erase, exec, construct, constructT, lift_bind_pure]; erase
  | assign l a =>
    refine .first (.cout _) (.catching _ _ ?_)
    rw [lift_bind_pure]; erase
  | throws l err a ih =>
    refine .first (.cout _) (.tryCatch (.bind ih fun _ => .last .count (.first (.cout _) (.cerr _))) fun t => ?_)
    by_cases h : err t
    · simp only [if_pos h]; exact .inr ⟨_, _, rfl, rfl, .cout _⟩
    · simp only [if_neg h]
      cases t with
      | std n => exact .inr ⟨_, _, rfl, rfl, .last .count (.first (.cout _) (.cerr _))⟩
      | other n => exact .inl ⟨rfl, rfl⟩
  | fail l a ih =>
    exact .first (.cout _) (.tryCatch (.bind ih fun _ => .last .count (.first (.cout _) (.cerr _))) fun t =>
      .inr ⟨_, _, rfl, rfl, .cout _⟩)
  | staticAssert k l b =>
    refine .first (.cout _) ?_
    cases b
    · exact .last .count (.first (fun _ => ⟨rfl, rfl⟩) fun _ => ⟨rfl, rfl⟩)
    · exact .cout _

/-! ## Specification: which checks fail, and what is a report -/

/-- Several rounds of a program with runs `r` and failing checks `f`. -/
def rounds (r : S σ) (f : σ → List Nat) : Nat → σ → List Nat
  | 0, _ => []
  | n + 1, s =>
    match r s with
    | ⟨_, _, _, .val _, s'⟩ => f s ++ rounds r f n s'
    | _ => f s

/-- `blame rtl p s`: the sites of the checks of `p` that fail and of the calls ended by a standard exception, in the order in
which this happens. -/
def blame (rtl : Bool) : TStmt σ V → σ → List Nat
  | .code _, _ => []
  | .seq a b, s =>
    match run rtl a.erase s with
    | ⟨_, _, _, .val _, s'⟩ => blame rtl a s ++ blame rtl b s'
    | _ => blame rtl a s
  | .ite c a b, s =>
    match c s with
    | (.val true, s') => blame rtl a s'
    | (.val false, s') => blame rtl b s'
    | _ => []
  | .loop n a, s => rounds (run rtl a.erase) (blame rtl a) (n s) s
  | .testClass _ a, s => blame rtl a s
  | .title _, _ | .comment _, _ | .warn _, _ | .notify _, _ | .skip _, _ | .print _ _, _ | .checkWarn .., _ | .construct .., _ => []
  | .call l a, s =>
    match (run rtl a.erase s).out with
    | .thrown (.std _) => blame rtl a s ++ [l]
    | _ => blame rtl a s
  | .execute _ a, s => blame rtl a s
  | .try_ l a, s =>
    match (run rtl a.erase s).out with
    | .thrown _ => blame rtl a s ++ [l]
    | _ => blame rtl a s
  | .evaluate l e, s => thrower l e s
  | .assert l e, s => check l e s
  | .check l eq e x, s => check l (rel rtl eq e x) s
  | .same l eq e x, s => check l (rel rtl eq e x) s
  | .sameAs l eq e x, s => check l (rel rtl eq e x) s
  | .equal l eq e x, s => check l (rel rtl eq e x) s
  | .notEqual l eq e x, s => check l ((rel rtl eq e x).bind fun b => .pure (!b)) s
  | .equals l eq e x, s => check l (rel rtl eq e x) s
  | .within l d le e x t, s => check l (((Exp.both rtl e x).bind fun p => d p.1 p.2).bind fun d => t.bind fun t => le d t) s
  | .less l lt e x, s => check l (rel rtl lt e x) s
  | .unaryPredicate l p a, s => check l ((ev a).bind fun _ => a.bind p) s
  | .binaryPredicate l p a1 a2, s => check l ((evs [ev a1, ev a2]).bind fun _ => rel rtl p a1 a2) s
  | .compare l c e x, s => check l ((ev e).bind fun _ => rel rtl c e x) s
  | .resultCompare l c e x, s => check l (e.bind fun a => x.bind fun b => c a b) s
  | .declare _ l c, s => thrower l c s
  | .assign l a, s => thrower l a s
  | .throws l err a, s =>
    match (run rtl a.erase s).out with
    | .val _ => blame rtl a s ++ [l]
    | .thrown (.std n) => if err (.std n) then blame rtl a s else blame rtl a s ++ [l]
    | .thrown (.other _) => blame rtl a s
  | .fail l a, s =>
    match (run rtl a.erase s).out with
    | .val _ => blame rtl a s ++ [l]
    | .thrown _ => blame rtl a s
  | .staticAssert _ l b, _ => if b then [] else [l]
where
  /-- a check with this verdict -/
  check (l : Nat) (v : Exp σ Bool) (s : σ) : List Nat :=
    match (v s).1 with
    | .val false => [l]
    | _ => []
  /-- an expression that should not throw -/
  thrower {α : Type} (l : Nat) (e : Exp σ α) (s : σ) : List Nat :=
    match (e s).1 with
    | .thrown _ => [l]
    | .val _ => []

/-- The token that begins an error message. -/
def Tok.isHead : Tok V → Bool
  | .lit s => s == "ERROR: "
  | _ => false

/-- A report for site `l`: it begins with `ERROR:`, the file and the line, holds no second `ERROR:` and ends with the line. -/
structure Report (l : Nat) (ts : List (Tok V)) : Prop where
  place : ∃ rest, ts = [.lit "ERROR: ", .file l, .lit ":", .line l, .lit ": "] ++ rest ∧ ∀ t ∈ rest, t.isHead = false
  finished : ∃ first, ts = first ++ [.lit "\n"]

/-- The text `ts` consists of one report for each of the sites, in their order; with `warns` there may be other messages. -/
inductive Reports (warns : Bool) : List Nat → List (Tok V) → Prop
  | nil : Reports warns [] []
  | report {l ls ts us} : Report l ts → Reports warns ls us → Reports warns (l :: ls) (ts ++ us)
  | other {ls ts us} : warns = true → (∀ t ∈ ts, t.isHead = false) → Reports warns ls us → Reports warns ls (ts ++ us)

theorem Reports.append {b : Bool} {ls ls' : List Nat} {ts ts' : List (Tok V)} (h : Reports b ls ts) (h' : Reports b ls' ts') :
    Reports b (ls ++ ls') (ts ++ ts') := by
  induction h with
  | nil => exact h'
  | report h1 _ ih => rw [List.append_assoc]; exact .report h1 ih
  | other h1 h2 _ ih => rw [List.append_assoc]; exact .other h1 h2 ih

theorem Reports.one {b : Bool} {l : Nat} {ts : List (Tok V)} (h : Report l ts) : Reports b [l] ts := by
  have := Reports.report (warns := b) h .nil
  rwa [List.append_nil] at this

/-- As many reports as sites. -/
theorem Reports.heads {b : Bool} {ls : List Nat} {ts : List (Tok V)} (h : Reports b ls ts) : ts.countP Tok.isHead = ls.length := by
  induction h with
  | nil => rfl
  | report h1 _ ih =>
    obtain ⟨rest, rfl, hr⟩ := h1.place
    rw [List.countP_append, ih, List.countP_append, (List.countP_eq_zero.2 (by simpa using hr) : rest.countP Tok.isHead = 0)]
    simp [Tok.isHead]; omega
  | other _ h2 _ ih =>
    rw [List.countP_append, ih, List.countP_eq_zero.2 (by simpa using h2)]; omega

/-- The expression never throws. -/
def Total (e : Exp σ α) : Prop := ∀ s, ∃ v s', e s = (.val v, s')

/-- The expressions that are evaluated again for the message of a failed check do not throw. -/
def Quiet : TStmt σ V → Prop
  | .seq a b => Quiet a ∧ Quiet b
  | .ite _ a b => Quiet a ∧ Quiet b
  | .loop _ a | .testClass _ a | .call _ a | .execute _ a | .try_ _ a | .throws _ _ a | .fail _ a => Quiet a
  | .check _ _ e x | .same _ _ e x | .sameAs _ _ e x | .equal _ _ e x | .notEqual _ _ e x | .equals _ _ e x
  | .compare _ _ e x => Total e ∧ Total x
  | .within _ _ _ e x t => Total e ∧ Total x ∧ Total t
  | .less _ _ e _ => Total e
  | .unaryPredicate _ _ a => Total a
  | .binaryPredicate _ _ a1 a2 => Total a1 ∧ Total a2
  | .resultCompare _ _ _ x => Total x
  | _ => True

/-- The program may write other messages to `std::cerr`. -/
def TStmt.warns : TStmt σ V → Bool
  | .seq a b => a.warns || b.warns
  | .ite _ a b => a.warns || b.warns
  | .loop _ a | .testClass _ a | .call _ a | .execute _ a | .try_ _ a | .throws _ _ a | .fail _ a => a.warns
  | .warn _ | .notify _ | .checkWarn .. => true
  | _ => false

/-! ## Proofs -/

/-- `m` writes the reports of `b` to `std::cerr`. -/
def Writes (wn : Bool) (m : MT σ V α) (b : σ → List Nat) : Prop :=
  ∀ wt, (m wt).1 ≠ .overflow → ∃ ts, (m wt).2.io.err = wt.io.err ++ ts ∧ Reports wn (b wt.w.u) ts

/-- `m` finishes a report for `l` of which `pre` has been written. -/
def Finishes (l : Nat) (pre : List (Tok V)) (m : MT σ V Unit) : Prop :=
  ∀ wt, ∃ ts, (m wt).2.io.err = wt.io.err ++ ts ∧ Report l (pre ++ ts)

namespace Finishes

theorem cout {l : Nat} {pre ts : List (Tok V)} {m : MT σ V Unit} (h : Finishes l pre m) : Finishes l pre (cout ts ;; m) :=
  fun _ => h _

theorem cerr {l : Nat} {pre ts : List (Tok V)} {m : MT σ V Unit} (h : Finishes l (pre ++ ts) m) :
    Finishes l pre (cerr ts ;; m) := by
  intro wt
  obtain ⟨us, h1, h2⟩ := h { wt with io := { wt.io with err := wt.io.err ++ ts } }
  refine ⟨ts ++ us, ?_, ?_⟩
  · show (m _).2.io.err = _
    rw [h1, List.append_assoc]
  · rwa [← List.append_assoc]

theorem lift {l : Nat} {pre : List (Tok V)} {e : Exp σ α} {f : α → MT σ V Unit} (he : Total e) (h : ∀ a, Finishes l pre (f a)) :
    Finishes l pre ((MT.lift e).bind f) := by
  intro wt
  obtain ⟨v, s, hv⟩ := he wt.w.u
  have := h v ⟨{ wt.w with u := s }, wt.io⟩
  simpa only [MT.bind, MT.lift, MT.silent, M.lift, hv] using this

theorem done {l : Nat} {pre ts : List (Tok V)} (h : Report l (pre ++ ts)) : Finishes (σ := σ) l pre (TestC.cerr ts) :=
  fun _ => ⟨ts, rfl, h⟩

theorem couts {l : Nat} {pre ts : List (Tok V)} (h : Report l pre) : Finishes (σ := σ) l pre (TestC.cout ts) :=
  fun _ => ⟨[], (List.append_nil _).symm, by rwa [List.append_nil]⟩

end Finishes

namespace Writes

theorem cout {wn : Bool} {ts : List (Tok V)} {m : MT σ V α} {b : σ → List Nat} (h : Writes wn m b) : Writes wn (cout ts ;; m) b :=
  fun _ => h _

theorem couts {wn : Bool} {ts : List (Tok V)} : Writes wn (TestC.cout (σ := σ) ts) fun _ => [] :=
  fun _ _ => ⟨[], (List.append_nil _).symm, .nil⟩

theorem lifts {wn : Bool} {e : Exp σ α} : Writes (V := V) wn (MT.lift e) fun _ => [] :=
  fun _ _ => ⟨[], (List.append_nil _).symm, .nil⟩

theorem lift {wn : Bool} {e : Exp σ α} {f : α → MT σ V β} {b : α → σ → List Nat} (h : ∀ a, Writes wn (f a) (b a)) :
    Writes wn ((MT.lift e).bind f) fun s => match e s with
      | (.val a, s') => b a s'
      | (.thrown _, _) => [] := by
  intro wt hn
  simp only [MT.bind, MT.lift, MT.silent, M.lift] at hn ⊢
  match he : e wt.w.u with
  | (.val a, s) => rw [he] at hn; exact h a _ hn
  | (.thrown t, s) => exact ⟨[], (List.append_nil _).symm, .nil⟩

theorem lift0 {wn : Bool} {e : Exp σ α} {f : α → MT σ V β} (h : ∀ a, Writes wn (f a) fun _ => []) :
    Writes wn ((MT.lift e).bind f) fun _ => [] := by
  intro wt hn
  simp only [MT.bind, MT.lift, MT.silent, M.lift] at hn ⊢
  match he : e wt.w.u with
  | (.val a, s) => rw [he] at hn; exact h a _ hn
  | (.thrown t, s) => exact ⟨[], (List.append_nil _).symm, .nil⟩

theorem report {wn : Bool} {l : Nat} {m : MT σ V Unit} (h : Finishes l [] m) : Writes wn (count ;; m) fun _ => [l] := by
  intro wt hn
  simp only [MT.bind, count, MT.silent, incr] at hn ⊢
  by_cases hf : wt.w.fails + 1 < 2 ^ 31
  · simp only [if_pos hf] at hn ⊢
    obtain ⟨ts, h1, h2⟩ := h ⟨{ wt.w with fails := wt.w.fails + 1 }, wt.io⟩
    exact ⟨ts, h1, .one h2⟩
  · simp only [if_neg hf] at hn
    exact absurd rfl hn

/-- A check. -/
theorem check {wn : Bool} {l : Nat} {v : Exp σ Bool} {ok ko : MT σ V Unit} (h1 : Writes wn ok fun _ => []) (h2 : Finishes l [] ko) :
    Writes wn ((MT.lift v).bind fun b => if b then ok else count ;; ko) (blame.check l v) := by
  intro wt hn
  have := lift (e := v) (f := fun b => if b then ok else count ;; ko) (b := fun b _ => if b then [] else [l]) (wn := wn)
    (fun b => match b with
      | true => h1
      | false => report h2) wt hn
  obtain ⟨ts, h3, h4⟩ := this
  refine ⟨ts, h3, ?_⟩
  simp only [blame.check]
  match hv : v wt.w.u with
  | (.val true, s) => simp only [hv] at h4; exact h4
  | (.val false, s) => simp only [hv] at h4; exact h4
  | (.thrown t, s) => simp only [hv] at h4; exact h4

theorem check_bind (l : Nat) (e : Exp σ α) (v : α → Exp σ Bool) (s : σ) : blame.check l (e.bind v) s =
    match e s with
    | (.val a, s') => blame.check l (v a) s'
    | (.thrown _, _) => [] := by
  simp only [blame.check, Exp.bind]
  match e s with
  | (.val a, s') => rfl
  | (.thrown t, s') => rfl

theorem bind {wn : Bool} {l : Nat} {e : Exp σ α} {f : α → MT σ V Unit} {v : α → Exp σ Bool}
    (h : ∀ a, Writes wn (f a) (blame.check l (v a))) : Writes wn ((MT.lift e).bind f) (blame.check l (e.bind v)) := by
  have := lift (e := e) h
  intro wt hn
  rw [check_bind]
  exact this wt hn

/-- Outcome by outcome. -/
theorem tryCatch {wn : Bool} {m : MT σ V Unit} {h : Thrown → Option (MT σ V Unit)} {wt w1 : WT σ V} {r : R Unit}
    (hm : m wt = (r, w1)) {ls ls' : List Nat} (h1 : ∃ ts, w1.io.err = wt.io.err ++ ts ∧ Reports wn ls ts)
    (hn : (m.tryCatch h wt).1 ≠ .overflow) (hv : ∀ a, r = .val a → ls' = [])
    (ht : ∀ t, r = .thrown t → (h t = none ∧ ls' = []) ∨ ∃ k, h t = some k ∧ Writes wn k fun _ => ls') :
    ∃ ts, (m.tryCatch h wt).2.io.err = wt.io.err ++ ts ∧ Reports wn (ls ++ ls') ts := by
  obtain ⟨ts, h2, h3⟩ := h1
  unfold MT.tryCatch at hn ⊢
  rw [hm] at hn ⊢
  match r with
  | .overflow => exact absurd rfl hn
  | .val a => rw [hv a rfl, List.append_nil]; exact ⟨ts, h2, h3⟩
  | .thrown t =>
    rcases ht t rfl with ⟨h4, rfl⟩ | ⟨k, h4, h5⟩
    · simp only [h4, List.append_nil]; exact ⟨ts, h2, h3⟩
    · simp only [h4] at hn ⊢
      obtain ⟨us, h6, h7⟩ := h5 w1 hn
      exact ⟨ts ++ us, by rw [h6, h2, List.append_assoc], h3.append h7⟩

/-- The report of `HELPER_TEST_CATCH`. -/
theorem caught {wn : Bool} {l : Nat} {ts : List (Tok V)} (hm : ∀ t ∈ ts, t.isHead = false) {us vs : List (Tok V)}
    (hu : ∀ t ∈ us, t.isHead = false) :
    Writes (σ := σ) wn (count ;; TestC.cout vs ;; cerr (here l ++ ts ++ (us ++ [.lit "\n"]))) fun _ => [l] := by
  refine report (Finishes.cout (Finishes.done ?_))
  refine ⟨⟨[.pretty l, .lit ": "] ++ ts ++ (us ++ [.lit "\n"]), by simp [here], ?_⟩, ⟨here l ++ ts ++ us, by simp⟩⟩
  intro t ht
  simp only [List.mem_append, List.mem_cons, List.not_mem_nil, or_false] at ht
  rcases ht with ((rfl | rfl) | h) | (h | rfl)
  · rfl
  · rfl
  · exact hm t h
  · exact hu t h
  · rfl

theorem catching {wn : Bool} {l : Nat} {m : MT σ V Unit} {wt w1 : WT σ V} {r : R Unit} {ts : List (Tok V)}
    (hts : ∀ t ∈ ts, t.isHead = false) (hm : m wt = (r, w1)) {ls : List Nat}
    (h1 : ∃ ts, w1.io.err = wt.io.err ++ ts ∧ Reports wn ls ts) (hn : (catchingT l ts m wt).1 ≠ .overflow) :
    ∃ us, (catchingT l ts m wt).2.io.err = wt.io.err ++ us ∧
      Reports wn (ls ++ match r with | .thrown _ => [l] | _ => []) us := by
  refine tryCatch hm h1 hn ?_ ?_
  · rintro a rfl; rfl
  · rintro t rfl
    refine .inr ?_
    cases t with
    | std n => exact ⟨_, rfl, caught hts (us := [.lit " throwed \"", .what (.std n), .lit "\"."]) (by simp [Tok.isHead])⟩
    | other n => exact ⟨_, rfl, caught hts (us := [.lit " throwed an unknown exception."]) (by simp [Tok.isHead])⟩

theorem thrower {wn : Bool} {l : Nat} {e : Exp σ α} {ts : List (Tok V)} {f : α → List (Tok V)} (hm : ∀ t ∈ ts, t.isHead = false) :
    Writes wn (catchingT l ts ((MT.lift e).bind fun v => TestC.cout (f v))) (blame.thrower l e) := by
  intro wt hn
  simp only [blame.thrower]
  match he : e wt.w.u with
  | (.val a, s) =>
    refine catching (r := .val ()) (ls := []) (w1 := ⟨{ wt.w with u := s }, { wt.io with out := wt.io.out ++ f a }⟩) hm ?_
      ⟨[], (List.append_nil _).symm, .nil⟩ hn
    simp only [MT.bind, MT.lift, MT.silent, M.lift, he, TestC.cout]
  | (.thrown t, s) =>
    refine catching (r := .thrown t) (ls := []) (w1 := ⟨{ wt.w with u := s }, wt.io⟩) hm ?_
      ⟨[], (List.append_nil _).symm, .nil⟩ hn
    simp only [MT.bind, MT.lift, MT.silent, M.lift, he]

end Writes

theorem report_of {l : Nat} {rest : List (Tok V)} (h : (rest.all fun t => !t.isHead) = true) :
    Report l ([.lit "ERROR: ", .file l, .lit ":", .line l, .lit ": "] ++ rest ++ [.lit "\n"]) := by
  refine ⟨⟨rest ++ [.lit "\n"], by simp, ?_⟩, ⟨_, rfl⟩⟩
  intro t ht
  rw [List.mem_append] at ht
  rcases ht with ht | ht
  · simpa using List.all_eq_true.1 h t ht
  · simp only [List.mem_cons, List.not_mem_nil, or_false] at ht; subst ht; rfl

/-- The report written by a check. -/
macro "finish" : tactic => `(tactic| (
  try simp only [twoValues, twoValuesErr, oneValue, coutV, cerrV, MT.assoc]
  repeat' first
    | with_reducible refine Finishes.cout ?_
    | with_reducible refine Finishes.cerr ?_
    | with_reducible refine Finishes.lift (by assumption) fun _ => ?_
    | with_reducible refine Finishes.done ?_
    | with_reducible refine Finishes.couts ?_
  all_goals (
    refine ⟨⟨_, rfl, ?_⟩, ?_⟩
    · simp [Tok.isHead]
    · exact ⟨_, List.dropLast_concat_getLast (by simp [here, hereF]) |>.symm⟩)))

theorem Reports.weaken {b b' : Bool} (hb : b = true → b' = true) {ls : List Nat} {ts : List (Tok V)} (h : Reports b ls ts) :
    Reports b' ls ts := by
  induction h with
  | nil => exact .nil
  | report h1 _ ih => exact .report h1 ih
  | other h1 h2 _ ih => exact .other (hb h1) h2 ih

theorem noOverflow {o : Out α} : ofOut o ≠ .overflow := by cases o <;> intro h <;> cases h

/-- How a program ends, from the spec. -/
theorem outcome (rtl : Bool) (p : TStmt σ V) {wt : WT σ V} (h : wt.w.fails + (run rtl p.erase wt.w.u).total < 2 ^ 31) :
    (execT rtl p wt).1 = ofOut (run rtl p.erase wt.w.u).out ∧
    (execT rtl p wt).2.w = ⟨(run rtl p.erase wt.w.u).u, wt.w.fails + (run rtl p.erase wt.w.u).total,
      wt.w.skipped + (run rtl p.erase wt.w.u).skipped⟩ := by
  obtain ⟨h1, h2⟩ := execT_erase rtl p wt
  rw [(good_exec rtl p.erase wt.w).1 h] at h1 h2
  exact ⟨h1, h2⟩

/-- A macro without statements in it. -/
theorem Writes.leaf {rtl : Bool} {p : TStmt σ V} {wt : WT σ V} {b : σ → List Nat} (hw : Writes p.warns (execT rtl p) b)
    (h : wt.w.fails + (run rtl p.erase wt.w.u).total < 2 ^ 31) :
    ∃ ts, (execT rtl p wt).2.io.err = wt.io.err ++ ts ∧ Reports p.warns (b wt.w.u) ts :=
  hw wt (by rw [(outcome rtl p h).1]; exact noOverflow)

/-- Other messages. -/
theorem Writes.other {ts : List (Tok V)} {m : MT σ V α} {b : σ → List Nat} (h : Writes true m b) (ht : ∀ t ∈ ts, t.isHead = false) :
    Writes true (cerr ts ;; m) b := by
  intro wt hn
  obtain ⟨us, h1, h2⟩ := h { wt with io := { wt.io with err := wt.io.err ++ ts } } hn
  exact ⟨ts ++ us, by show (m _).2.io.err = _; rw [h1, List.append_assoc], .other rfl ht h2⟩

theorem Writes.others {ts : List (Tok V)} (ht : ∀ t ∈ ts, t.isHead = false) : Writes (σ := σ) true (cerr ts) fun _ => [] :=
  fun _ _ => ⟨ts, rfl, by have := Reports.other (warns := true) rfl ht .nil; rwa [List.append_nil] at this⟩

/-- Only other messages. -/
macro "others" : tactic => `(tactic| (
  try simp only [coutV, cerrV, MT.assoc]
  repeat' first
    | with_reducible exact Writes.couts
    | with_reducible refine Writes.cout ?_
    | with_reducible refine Writes.lift0 fun _ => ?_
    | with_reducible refine Writes.other ?_ (by simp [Tok.isHead])
    | with_reducible exact Writes.others (by simp [Tok.isHead])))

theorem check_not (l : Nat) (v : Exp σ Bool) (s : σ) : blame.check l (v.bind fun b => .pure (!b)) s =
    match (v s).1 with
    | .val true => [l]
    | _ => [] := by
  simp only [blame.check, Exp.bind, Exp.pure]
  match v s with
  | (.val true, _) => rfl
  | (.val false, _) => rfl
  | (.thrown _, _) => rfl

theorem check_ev (l : Nat) (e : Exp σ α) (v : Exp σ Bool) :
    blame.check l ((ev e).bind fun _ => v) = blame.check l (e.bind fun _ => v) := by
  funext s
  simp only [blame.check, Exp.bind, ev]
  rcases e s with ⟨_ | _, _⟩ <;> rfl

theorem check_evs (l : Nat) (e e' : Exp σ α) (v : Exp σ Bool) :
    blame.check l ((evs [ev e, ev e']).bind fun _ => v) = blame.check l (e.bind fun _ => e'.bind fun _ => v) := by
  funext s
  simp only [blame.check, Exp.bind, ev, evs]
  rcases e s with ⟨_ | _, s'⟩
  · simp only
    rcases e' s' with ⟨_ | _, _⟩ <;> rfl
  · rfl

/-- Site `l` after `ls` or not. -/
theorem Reports.of_eq {b : Bool} {ls ls' : List Nat} {ts : List (Tok V)} (h : Reports b ls ts) (e : ls = ls') : Reports b ls' ts := e ▸ h

theorem writes_leaf (rtl : Bool) (l : Nat) (eq : V → V → Exp σ Bool) (e x : Exp σ V) (he : Total e) (hx : Total x) (wn : Bool) :
    Writes wn (checkT l rtl eq e x) (blame.check l (rel rtl eq e x)) ∧
    Writes wn (sameT l rtl eq e x) (blame.check l (rel rtl eq e x)) ∧
    Writes wn (sameAsT l rtl eq e x) (blame.check l (rel rtl eq e x)) ∧
    Writes wn (equalT l rtl eq e x) (blame.check l (rel rtl eq e x)) ∧
    Writes wn (notEqualT l rtl eq e x) (blame.check l ((rel rtl eq e x).bind fun b => .pure (!b))) ∧
    Writes wn (equalsT l rtl eq e x) (blame.check l (rel rtl eq e x)) ∧
    Writes wn (compareT l rtl eq e x) (blame.check l ((ev e).bind fun _ => rel rtl eq e x)) := by
  refine ⟨?_, ?_, ?_, ?_, ?_, ?_, ?_⟩
  · simp only [checkT, testingCheckT, MT.assoc]
    refine Writes.cout (Writes.bind fun p => Writes.cout (Writes.check Writes.couts ?_))
    finish
  · refine Writes.cout (Writes.check Writes.couts ?_)
    finish
  · refine Writes.cout (Writes.check Writes.couts ?_)
    finish
  · refine Writes.cout (Writes.check Writes.couts ?_)
    finish
  · have key : Finishes l [] (twoValues l e x ;; twoValuesErr l "Inequality" " != " e x) := by finish
    intro wt hn
    have := Writes.cout (ts := [.src l 0, .lit " != ", .src l 1, .lit ": "]) (Writes.lift (e := rel rtl eq e x)
      (f := fun ok => if ok then count ;; twoValues l e x ;; twoValuesErr l "Inequality" " != " e x
        else TestC.cout [.lit "true\n", .lit "\n"]) (b := fun b _ => if b then [l] else []) (wn := wn)
      (fun b => match b with
        | true => Writes.report key
        | false => Writes.couts)) wt hn
    obtain ⟨ts, h1, h2⟩ := this
    refine ⟨ts, h1, h2.of_eq ?_⟩
    rw [check_not]
    match rel rtl eq e x wt.w.u with
    | (.val true, _) => rfl
    | (.val false, _) => rfl
    | (.thrown _, _) => rfl
  · refine Writes.cout (Writes.check Writes.couts ?_)
    finish
  · rw [check_ev]
    simp only [compareT, coutV, MT.assoc]
    refine Writes.cout (Writes.bind fun v => Writes.cout (Writes.check ?_ ?_))
    · others
    · finish

/-- One after the other. -/
theorem Writes.seqs {wn : Bool} {m k : MT σ V Unit} {wt w1 : WT σ V} {o : Out Unit} {ls ls' : List Nat}
    (hm : m wt = (ofOut o, w1)) (h1 : ∃ ts, w1.io.err = wt.io.err ++ ts ∧ Reports wn ls ts)
    (h2 : o = .val () → ∃ ts, (k w1).2.io.err = w1.io.err ++ ts ∧ Reports wn ls' ts) :
    ∃ ts, ((m ;; k) wt).2.io.err = wt.io.err ++ ts ∧
      Reports wn (match (generalizing := false) o with | .val _ => ls ++ ls' | .thrown _ => ls) ts := by
  obtain ⟨ts, h3, h4⟩ := h1
  unfold MT.bind
  rw [hm]
  match o with
  | .thrown t => exact ⟨ts, h3, h4⟩
  | .val () =>
    obtain ⟨us, h5, h6⟩ := h2 rfl
    exact ⟨ts ++ us, by show (k w1).2.io.err = _; rw [h5, h3, List.append_assoc], h4.append h6⟩

theorem total_seq {r r' : S σ} {s : σ} {n : Nat} (h : n + (andThen r r' s).total < 2 ^ 31) :
    n + (r s).total < 2 ^ 31 ∧ ((r s).out = .val () → n + (r s).total + (r' (r s).u).total < 2 ^ 31) := by
  simp only [andThen] at h
  cases ho : (r s).out with
  | thrown t => rw [ho] at h; exact ⟨h, fun h' => nomatch h'⟩
  | val a => rw [ho] at h; simp only [Run.total] at h ⊢; exact ⟨by omega, fun _ => by omega⟩

theorem rounds_succ (r : S σ) (f : σ → List Nat) (n : Nat) (s : σ) : rounds r f (n + 1) s =
    match (r s).out with
    | .val _ => f s ++ rounds r f n (r s).u
    | .thrown _ => f s := by
  rw [rounds]
  rcases r s with ⟨_, _, _, _ | _, _⟩ <;> rfl

theorem blame_seq (rtl : Bool) (a b : TStmt σ V) (s : σ) : blame rtl (.seq a b) s =
    match (run rtl a.erase s).out with
    | .val _ => blame rtl a s ++ blame rtl b (run rtl a.erase s).u
    | .thrown _ => blame rtl a s := by
  rw [blame]
  rcases run rtl a.erase s with ⟨_, _, _, _ | _, _⟩ <;> rfl

/-- What is to be shown of a program. -/
def Says (wn rtl : Bool) (p : TStmt σ V) : Prop := ∀ wt : WT σ V, wt.w.fails + (run rtl p.erase wt.w.u).total < 2 ^ 31 →
  ∃ ts, (execT rtl p wt).2.io.err = wt.io.err ++ ts ∧ Reports wn (blame rtl p wt.w.u) ts

theorem Says.weaken {wn wn' rtl : Bool} {p : TStmt σ V} (h : Says wn rtl p) (hb : wn = true → wn' = true) : Says wn' rtl p := by
  intro wt hf
  obtain ⟨ts, h1, h2⟩ := h wt hf
  exact ⟨ts, h1, h2.weaken hb⟩

theorem Says.run {rtl wn : Bool} {p : TStmt σ V} (hp : Says wn rtl p) {wt : WT σ V}
    (h : wt.w.fails + (run rtl p.erase wt.w.u).total < 2 ^ 31) :
    ∃ w1, execT rtl p wt = (ofOut (Spec.run rtl p.erase wt.w.u).out, w1) ∧
      w1.w = ⟨(Spec.run rtl p.erase wt.w.u).u, wt.w.fails + (Spec.run rtl p.erase wt.w.u).total,
        wt.w.skipped + (Spec.run rtl p.erase wt.w.u).skipped⟩ ∧
      ∃ ts, w1.io.err = wt.io.err ++ ts ∧ Reports wn (blame rtl p wt.w.u) ts := by
  obtain ⟨h1, h2⟩ := outcome rtl p h
  obtain ⟨ts, h3, h4⟩ := hp wt h
  exact ⟨(execT rtl p wt).2, Prod.ext h1 rfl, h2, ts, h3, h4⟩

theorem Says.seq {rtl wn : Bool} {a b : TStmt σ V} (ha : Says wn rtl a) (hb : Says wn rtl b) : Says wn rtl (.seq a b) := by
  intro wt h
  obtain ⟨h1, h2⟩ := total_seq h
  obtain ⟨w1, h3, h4, h5⟩ := ha.run h1
  rw [blame_seq]
  refine Writes.seqs h3 h5 fun ho => ?_
  have := hb w1
  rw [h4] at this
  exact this (h2 ho)

theorem Says.rounds {rtl wn : Bool} {a : TStmt σ V} (ha : Says wn rtl a) : ∀ (n : Nat) (wt : WT σ V),
    wt.w.fails + (times (Spec.run rtl a.erase) n wt.w.u).total < 2 ^ 31 →
    ∃ ts, (loopT (execT rtl a) n wt).2.io.err = wt.io.err ++ ts ∧
      Reports wn (TestC.rounds (Spec.run rtl a.erase) (blame rtl a) n wt.w.u) ts
  | 0, wt, _ => ⟨[], (List.append_nil _).symm, .nil⟩
  | n + 1, wt, h => by
    obtain ⟨h1, h2⟩ := total_seq h
    obtain ⟨w1, h3, h4, h5⟩ := ha.run h1
    rw [rounds_succ]
    refine Writes.seqs h3 h5 fun ho => ?_
    have := Says.rounds ha n w1
    rw [h4] at this
    exact this (h2 ho)

/-- A statement within a `try` block. -/
theorem Says.within {rtl wn : Bool} {a : TStmt σ V} (ha : Says wn rtl a) {h : Thrown → Option (MT σ V Unit)} {k : MT σ V Unit}
    {pre : List (Tok V)} {lv : List Nat} {lt : Thrown → List Nat} {wt : WT σ V}
    (hf : wt.w.fails + (Spec.run rtl a.erase wt.w.u).total < 2 ^ 31)
    (hn : ((cout pre ;; (execT rtl a ;; k).tryCatch h) wt).1 ≠ .overflow)
    (hk : Writes wn k fun _ => lv) (hk' : ∀ wt t, (k wt).1 ≠ .thrown t)
    (ht : ∀ t, (h t = none ∧ lt t = []) ∨ ∃ k, h t = some k ∧ Writes wn k fun _ => lt t) :
    ∃ ts, ((cout pre ;; (execT rtl a ;; k).tryCatch h) wt).2.io.err = wt.io.err ++ ts ∧
      Reports wn (blame rtl a wt.w.u ++
        match (generalizing := false) (Spec.run rtl a.erase wt.w.u).out with | .val _ => lv | .thrown t => lt t) ts := by
  let wt' : WT σ V := { wt with io := { wt.io with out := wt.io.out ++ pre } }
  have hn' : ((execT rtl a ;; k).tryCatch h wt').1 ≠ .overflow := hn
  obtain ⟨w1, h3, h4, ts, h5, h6⟩ := ha.run (wt := wt') hf
  show ∃ ts, ((execT rtl a ;; k).tryCatch h wt').2.io.err = wt'.io.err ++ ts ∧ _
  have e : wt'.w.u = wt.w.u := rfl
  rw [e] at h3 h6
  cases ho : (Spec.run rtl a.erase wt.w.u).out with
  | thrown t =>
    rw [ho] at h3
    have hm : (execT rtl a ;; k) wt' = (.thrown t, w1) := by simp only [MT.bind, h3, ofOut]
    refine Writes.tryCatch hm ⟨ts, h5, h6⟩ hn' (fun _ h => nomatch h) fun t' h' => ?_
    cases h'
    exact ht t
  | val v =>
    rw [ho] at h3
    have hm : (execT rtl a ;; k) wt' = k w1 := by simp only [MT.bind, h3, ofOut]
    have hko : (k w1).1 ≠ .overflow := by
      intro hc
      apply hn'
      rw [← hm] at hc
      unfold MT.tryCatch
      rcases hq : (execT rtl a ;; k) wt' with ⟨r, w2⟩
      rw [hq] at hc
      simp only at hc
      subst hc
      rfl
    obtain ⟨us, h7, h8⟩ := hk w1 hko
    rw [← List.append_nil (blame rtl a wt.w.u ++ lv)]
    refine Writes.tryCatch (r := (k w1).1) (w1 := (k w1).2) hm
      ⟨ts ++ us, by rw [h7, h5, List.append_assoc], h6.append h8⟩ hn' (fun _ _ => rfl) fun t h => absurd h (hk' w1 t)

theorem bind_done (m : MT σ V Unit) : (m ;; MT.pure ()) = m := by
  funext wt
  simp only [MT.bind, MT.pure]
  rcases m wt with ⟨_ | _ | _, _⟩ <;> rfl

theorem cout_cout (ts us : List (Tok V)) : (cout (σ := σ) ts ;; cout us) = cout (ts ++ us) := by
  funext wt
  simp only [MT.bind, cout, List.append_assoc]

theorem Writes.tail {wn : Bool} {m k : MT σ V Unit} {b : σ → List Nat} (hm : Writes wn m b) (hk : Writes wn k fun _ => []) :
    Writes wn (m ;; k) b := by
  intro wt hn
  simp only [MT.bind] at hn ⊢
  have := hm wt
  rcases he : m wt with ⟨r, w1⟩
  rw [he] at hn this
  match r with
  | .overflow => exact absurd rfl hn
  | .thrown t => exact this (fun h => nomatch h)
  | .val () =>
    obtain ⟨ts, h1, h2⟩ := this (fun h => nomatch h)
    obtain ⟨us, h3, h4⟩ := hk w1 hn
    refine ⟨ts ++ us, ?_, (h2.append h4).of_eq (List.append_nil _)⟩
    show (k w1).2.io.err = _
    rw [h3, h1, List.append_assoc]

theorem Writes.done {wn : Bool} : Writes (σ := σ) (V := V) wn (MT.pure ()) fun _ => [] :=
  fun _ _ => ⟨[], (List.append_nil _).symm, .nil⟩

theorem count_noThrow {ts us : List (Tok V)} (wt : WT σ V) (t : Thrown) :
    ((count ;; cout ts ;; cerr us) wt).1 ≠ .thrown t := by
  simp only [MT.bind, count, MT.silent, incr]
  by_cases hf : wt.w.fails + 1 < 2 ^ 31
  · simp [if_pos hf, cout, cerr]
  · simp [if_neg hf]

theorem How.noHead (h : How) (l : Nat) : ∀ t ∈ (h.msg l : List (Tok V)), t.isHead = false := by
  cases h <;> simp [How.msg, Tok.isHead]

theorem says_exec (rtl : Bool) : ∀ p : TStmt σ V, Quiet p → Says p.warns rtl p := by
  intro p
  induction p with
  | code e => exact fun _ wt h => Writes.leaf Writes.lifts h
  | seq a b iha ihb =>
    intro hq
    exact .seq ((iha hq.1).weaken fun h => by simp [TStmt.warns, h]) ((ihb hq.2).weaken fun h => by simp [TStmt.warns, h])
  | ite c a b iha ihb =>
    intro hq wt h
    simp only [execT, MT.bind, MT.lift, MT.silent, M.lift, blame]
    simp only [TStmt.erase, Spec.run] at h
    match hc : c wt.w.u with
    | (.val true, s) =>
      rw [hc] at h
      exact (iha hq.1).weaken (wn' := (TStmt.ite c a b).warns) (fun h => by simp [TStmt.warns, h]) ⟨{ wt.w with u := s }, wt.io⟩ h
    | (.val false, s) =>
      rw [hc] at h
      exact (ihb hq.2).weaken (wn' := (TStmt.ite c a b).warns) (fun h => by simp [TStmt.warns, h]) ⟨{ wt.w with u := s }, wt.io⟩ h
    | (.thrown t, s) => exact ⟨[], (List.append_nil _).symm, .nil⟩
  | loop n a ih => exact fun hq wt h => (ih hq).rounds (n wt.w.u) wt h
  | testClass l a ih =>
    exact fun hq wt h => ih hq { wt with io := { wt.io with
      out := wt.io.out ++ [bar, .lit "TESTING CLASS ", .src l 0, .lit "\n", bar, .lit "\n"], cls := some l } } h
  | title e =>
    refine fun _ wt h => Writes.leaf (b := fun _ => []) ?_ h
    simp only [execT, titleT]
    refine Writes.cout ?_
    have : Writes (σ := σ) (V := V) (TStmt.title e).warns (TestC.cout [.lit ": "] ;; coutV e ;;
        TestC.cout [.lit " ***", .lit "\n", .lit "\n"]) fun _ => [] := by others
    exact fun wt hn => this { wt with io := { wt.io with cases := wt.io.cases + 1, out := wt.io.out ++ [.num (wt.io.cases + 1)] } } hn
  | comment e =>
    refine fun _ wt h => Writes.leaf (b := fun _ => []) ?_ h
    simp only [execT, commentT]; others
  | warn e =>
    refine fun _ wt h => Writes.leaf (b := fun _ => []) ?_ h
    simp only [execT, warnT, TStmt.warns]; others
  | notify e =>
    refine fun _ wt h => Writes.leaf (b := fun _ => []) ?_ h
    simp only [execT, warnT, TStmt.warns]; others
  | call l a ih =>
    intro hq wt h
    have hn : (execT rtl (.call l a) wt).1 ≠ .overflow := by rw [(outcome rtl (.call l a) h).1]; exact noOverflow
    have hf : wt.w.fails + (Spec.run rtl a.erase wt.w.u).total < 2 ^ 31 := by
      simp only [TStmt.erase, Spec.run, callS] at h
      rcases hr : Spec.run rtl a.erase wt.w.u with ⟨f, e, k, _ | ⟨_ | _⟩, u⟩ <;> rw [hr] at h <;> simp only [Run.total] at h ⊢ <;> omega
    simp only [execT, callT] at hn ⊢
    rw [← bind_done (execT rtl a)] at hn ⊢
    obtain ⟨ts, h1, h2⟩ := (ih hq).within (lv := []) (lt := fun t => match t with | .std _ => [l] | .other _ => []) hf hn
      Writes.done (fun _ _ h => nomatch h) (fun t => match t with
        | .std n => .inr ⟨_, rfl, Writes.report (by finish)⟩
        | .other n => .inl ⟨rfl, rfl⟩)
    refine ⟨ts, h1, h2.of_eq ?_⟩
    rw [blame]
    rcases (Spec.run rtl a.erase wt.w.u).out with _ | ⟨_ | _⟩ <;> simp
  | skip l => exact fun _ wt _ => ⟨[], (List.append_nil _).symm, .nil⟩
  | execute l a ih =>
    intro hq wt h
    obtain ⟨w1, h3, h4, h5⟩ := (ih hq).run (wt := { wt with io := { wt.io with out := wt.io.out ++ [.src l 0, .lit ": "] } }) h
    obtain ⟨ts, h6, h7⟩ := Writes.seqs (k := TestC.cout [.lit " (ok)\n", .lit "\n"]) (ls' := []) h3 h5 fun _ =>
      ⟨[], (List.append_nil _).symm, .nil⟩
    refine ⟨ts, h6, h7.of_eq ?_⟩
    rw [blame]
    cases (Spec.run rtl a.erase wt.w.u).out <;> simp
  | try_ l a ih =>
    intro hq wt h
    have hn : (execT rtl (.try_ l a) wt).1 ≠ .overflow := by rw [(outcome rtl (.try_ l a) h).1]; exact noOverflow
    have hf : wt.w.fails + (Spec.run rtl a.erase wt.w.u).total < 2 ^ 31 := by
      simp only [TStmt.erase, Spec.run, noThrow] at h
      rcases hr : Spec.run rtl a.erase wt.w.u with ⟨f, e, k, _ | _, u⟩ <;> rw [hr] at h <;> simp only [Run.total] at h ⊢ <;> omega
    simp only [execT, tryT, catchingT] at hn ⊢
    obtain ⟨ts, h1, h2⟩ := (ih hq).within (lv := []) (lt := fun _ => [l]) hf hn Writes.couts (fun _ _ h => nomatch h)
      (fun t => match t with
        | .std n => .inr ⟨_, rfl, Writes.report (by finish)⟩
        | .other n => .inr ⟨_, rfl, Writes.report (by finish)⟩)
    refine ⟨ts, h1, h2.of_eq ?_⟩
    rw [blame]
    cases (Spec.run rtl a.erase wt.w.u).out <;> simp
  | print l e =>
    refine fun _ wt h => Writes.leaf (b := fun _ => []) ?_ h
    simp only [execT, printT]; others
  | evaluate l e =>
    refine fun _ wt h => Writes.leaf (b := blame.thrower l e) ?_ h
    simp only [execT, evaluateT, coutV, MT.assoc, cout_cout]
    exact Writes.cout (Writes.thrower (by simp [Tok.isHead]))
  | assert l e =>
    refine fun _ wt h => Writes.leaf (b := blame.check l e) ?_ h
    refine Writes.cout (Writes.check Writes.couts ?_)
    finish
  | checkWarn l eq e x =>
    refine fun _ wt h => Writes.leaf (b := fun _ => []) ?_ h
    simp only [execT, checkWarnT, TStmt.warns, testingCheckT, MT.assoc]
    refine Writes.cout (Writes.lift0 fun p => Writes.cout (Writes.lift0 fun b => ?_))
    cases b
    · simp only [Bool.false_eq_true, if_false]; others
    · exact Writes.couts
  | check l eq e x => exact fun hq wt h => Writes.leaf (p := .check l eq e x) (writes_leaf rtl l eq e x hq.1 hq.2 _).1 h
  | same l eq e x => exact fun hq wt h => Writes.leaf (p := .same l eq e x) (writes_leaf rtl l eq e x hq.1 hq.2 _).2.1 h
  | sameAs l eq e x => exact fun hq wt h => Writes.leaf (p := .sameAs l eq e x) (writes_leaf rtl l eq e x hq.1 hq.2 _).2.2.1 h
  | equal l eq e x => exact fun hq wt h => Writes.leaf (p := .equal l eq e x) (writes_leaf rtl l eq e x hq.1 hq.2 _).2.2.2.1 h
  | notEqual l eq e x =>
    exact fun hq wt h => Writes.leaf (p := .notEqual l eq e x) (writes_leaf rtl l eq e x hq.1 hq.2 _).2.2.2.2.1 h
  | equals l eq e x =>
    exact fun hq wt h => Writes.leaf (p := .equals l eq e x) (writes_leaf rtl l eq e x hq.1 hq.2 _).2.2.2.2.2.1 h
  | within l d le e x t =>
    intro hq wt h
    obtain ⟨h1, h2, h3⟩ := hq
    refine Writes.leaf (p := .within l d le e x t)
      (b := blame.check l (((Exp.both rtl e x).bind fun p => d p.1 p.2).bind fun d => t.bind fun t => le d t)) ?_ h
    simp only [execT, withinT]
    refine Writes.cout (Writes.bind fun v => Writes.check Writes.couts ?_)
    finish
  | less l lt e x =>
    intro hq wt h
    have he : Total e := hq
    refine Writes.leaf (p := .less l lt e x) (b := blame.check l (rel rtl lt e x)) ?_ h
    refine Writes.cout (Writes.check Writes.couts ?_)
    finish
  | unaryPredicate l p a =>
    intro hq wt h
    have he : Total a := hq
    refine Writes.leaf (p := .unaryPredicate l p a) (b := blame.check l ((ev a).bind fun _ => a.bind p)) ?_ h
    rw [check_ev]
    simp only [execT, unaryPredicateT, coutV, MT.assoc]
    refine Writes.cout (Writes.bind fun v => Writes.cout (Writes.cout (Writes.check Writes.couts ?_)))
    finish
  | binaryPredicate l p a1 a2 =>
    intro hq wt h
    obtain ⟨h1, h2⟩ := hq
    refine Writes.leaf (p := .binaryPredicate l p a1 a2)
      (b := blame.check l ((evs [ev a1, ev a2]).bind fun _ => rel rtl p a1 a2)) ?_ h
    rw [check_evs]
    simp only [execT, binaryPredicateT, coutV, MT.assoc]
    refine Writes.cout (Writes.bind fun v => Writes.cout (Writes.cout (Writes.bind fun v => Writes.cout (Writes.cout
      (Writes.check Writes.couts ?_)))))
    finish
  | compare l c e x =>
    exact fun hq wt h => Writes.leaf (p := .compare l c e x) (writes_leaf rtl l c e x hq.1 hq.2 _).2.2.2.2.2.2 h
  | resultCompare l c e x =>
    intro hq wt h
    have he : Total x := hq
    refine Writes.leaf (p := .resultCompare l c e x) (b := blame.check l (e.bind fun a => x.bind fun b => c a b)) ?_ h
    refine Writes.bind fun v => Writes.cout (Writes.check ?_ ?_)
    · others
    · finish
  | declare how l c =>
    refine fun _ wt h => Writes.leaf (b := blame.thrower l c) ?_ h
    exact Writes.cout (Writes.tail (Writes.thrower (how.noHead l)) (Writes.lift0 fun _ => Writes.done))
  | construct b l c =>
    refine fun _ wt h => Writes.leaf (b := fun _ => []) ?_ h
    simp only [execT, constructT]; others
  | assign l a =>
    refine fun _ wt h => Writes.leaf (b := blame.thrower l a) ?_ h
    simp only [execT, assignT, coutV, MT.assoc, cout_cout]
    exact Writes.cout (Writes.thrower (by simp [Tok.isHead]))
  | throws l err a ih =>
    intro hq wt h
    have hn : (execT rtl (.throws l err a) wt).1 ≠ .overflow := by rw [(outcome rtl (.throws l err a) h).1]; exact noOverflow
    have hf : wt.w.fails + (Spec.run rtl a.erase wt.w.u).total < 2 ^ 31 := by
      simp only [TStmt.erase, Spec.run, throwsS] at h
      rcases hr : Spec.run rtl a.erase wt.w.u with ⟨f, e, k, _ | t, u⟩
      · rw [hr] at h; simp only [Run.total] at h ⊢; omega
      · rw [hr] at h
        by_cases he : err t
        · simp only [if_pos he, Run.total] at h ⊢; omega
        · cases t <;> simp only [if_neg he, Run.total] at h ⊢ <;> omega
    simp only [execT, throwsT] at hn ⊢
    obtain ⟨ts, h1, h2⟩ := (ih hq).within (lv := [l])
      (lt := fun t => match t with | .std n => if err (.std n) then [] else [l] | .other _ => []) hf hn
      (Writes.report (by finish)) count_noThrow (fun t => by
        by_cases he : err t
        · simp only [if_pos he]
          refine .inr ⟨_, rfl, ?_⟩
          cases t with
          | std n => simp only [if_pos he]; exact Writes.couts
          | other n => exact Writes.couts
        · simp only [if_neg he]
          cases t with
          | std n => simp only [if_neg he]; exact .inr ⟨_, rfl, Writes.report (by finish)⟩
          | other n => exact .inl ⟨rfl, rfl⟩)
    refine ⟨ts, h1, h2.of_eq ?_⟩
    rw [blame]
    rcases (Spec.run rtl a.erase wt.w.u).out with _ | ⟨n | _⟩
    · rfl
    · by_cases he : err (.std n) <;> simp [he]
    · simp
  | fail l a ih =>
    intro hq wt h
    have hn : (execT rtl (.fail l a) wt).1 ≠ .overflow := by rw [(outcome rtl (.fail l a) h).1]; exact noOverflow
    have hf : wt.w.fails + (Spec.run rtl a.erase wt.w.u).total < 2 ^ 31 := by
      simp only [TStmt.erase, Spec.run, failS] at h
      rcases hr : Spec.run rtl a.erase wt.w.u with ⟨f, e, k, _ | t, u⟩ <;> rw [hr] at h <;> simp only [Run.total] at h ⊢ <;> omega
    simp only [execT, failT] at hn ⊢
    obtain ⟨ts, h1, h2⟩ := (ih hq).within (lv := [l]) (lt := fun _ => []) hf hn
      (Writes.report (by finish)) count_noThrow (fun t => .inr ⟨_, rfl, Writes.couts⟩)
    refine ⟨ts, h1, h2.of_eq ?_⟩
    rw [blame]
    rcases (Spec.run rtl a.erase wt.w.u).out with _ | _ <;> simp
  | staticAssert k l b =>
    refine fun _ wt h => Writes.leaf (b := fun _ => if b then [] else [l]) ?_ h
    refine Writes.cout ?_
    cases b
    · refine Writes.report ?_
      intro wt
      refine ⟨hereF l ++ [.cls wt.io.cls, .lit ": "] ++ k.msg l ++ [.lit "\n"], rfl, ⟨?_, ⟨_, rfl⟩⟩⟩
      refine ⟨[.func l, .lit ": "] ++ [.cls wt.io.cls, .lit ": "] ++ k.msg l ++ [.lit "\n"], by simp [hereF], ?_⟩
      cases k <;> simp [Static.msg, Tok.isHead]
    · exact Writes.couts

/-! ## At most one report for each failure, without assumptions -/

/-- `m` writes at most `c` reports more than it counts failures; unless it is `free` to do so, it writes to `std::cerr` only if it
counts failures. -/
def Pays (free : Bool) (c : Nat) (m : MT σ V α) : Prop := ∀ wt, ∃ ts n, (m wt).2.io.err = wt.io.err ++ ts ∧
  (m wt).2.w.fails = wt.w.fails + n ∧ ts.countP Tok.isHead ≤ n + c ∧ (free = false → n = 0 → ts = [])

namespace Pays

theorem none {free : Bool} {m : MT σ V α} (h1 : ∀ wt, (m wt).2.io.err = wt.io.err) (h2 : ∀ wt, (m wt).2.w.fails = wt.w.fails) :
    Pays free 0 m := fun wt => ⟨[], 0, by rw [h1, List.append_nil], h2 wt, Nat.le_refl _, fun _ _ => rfl⟩

theorem weaken {free free' : Bool} {c c' : Nat} {m : MT σ V α} (h : Pays free c m) (hf : free = true → free' = true) (hc : c ≤ c') :
    Pays free' c' m := by
  intro wt
  obtain ⟨ts, n, h1, h2, h3, h4⟩ := h wt
  refine ⟨ts, n, h1, h2, by omega, fun hf' => h4 ?_⟩
  cases free
  · rfl
  · rw [hf rfl] at hf'; cases hf'

theorem couts {free : Bool} {ts : List (Tok V)} : Pays free 0 (cout (σ := σ) ts) := none (fun _ => rfl) fun _ => rfl

theorem done {free : Bool} : Pays (σ := σ) (V := V) free 0 (MT.pure ()) := none (fun _ => rfl) fun _ => rfl

theorem lifts {free : Bool} {e : Exp σ α} : Pays (V := V) free 0 (MT.lift e) := by
  refine none (fun _ => rfl) fun wt => ?_
  simp only [MT.lift, MT.silent, M.lift]
  rcases e wt.w.u with ⟨_ | _, _⟩ <;> rfl

theorem cerrs {ts : List (Tok V)} : Pays true (ts.countP Tok.isHead) (cerr (σ := σ) ts) :=
  fun _ => ⟨ts, 0, rfl, rfl, by omega, fun h => nomatch h⟩

theorem bind {free : Bool} {c d : Nat} {m : MT σ V α} {f : α → MT σ V β} (h : Pays free c m) (h' : ∀ a, Pays free d (f a)) :
    Pays free (c + d) (m.bind f) := by
  intro wt
  obtain ⟨ts, n, h1, h2, h3, h4⟩ := h wt
  simp only [MT.bind]
  rcases he : m wt with ⟨_ | _ | _, w1⟩ <;> rw [he] at h1 h2
  · obtain ⟨us, k, h5, h6, h7, h8⟩ := h' _ w1
    refine ⟨ts ++ us, n + k, by rw [h5, h1, List.append_assoc], by rw [h6, h2, Nat.add_assoc], ?_, fun hf hn => ?_⟩
    · rw [List.countP_append]; omega
    · rw [h4 hf (by omega), h8 hf (by omega)]; rfl
  · exact ⟨ts, n, h1, h2, by omega, h4⟩
  · exact ⟨ts, n, h1, h2, by omega, h4⟩

theorem tryCatch {free : Bool} {m : MT σ V Unit} {h : Thrown → Option (MT σ V Unit)} (hm : Pays free 0 m)
    (hh : ∀ t k, h t = some k → Pays free 0 k) : Pays free 0 (m.tryCatch h) := by
  intro wt
  obtain ⟨ts, n, h1, h2, h3, h4⟩ := hm wt
  simp only [MT.tryCatch]
  rcases he : m wt with ⟨_ | t | _, w1⟩ <;> rw [he] at h1 h2
  · exact ⟨ts, n, h1, h2, h3, h4⟩
  · cases ht : h t with
    | none => simp only [ht]; exact ⟨ts, n, h1, h2, h3, h4⟩
    | some k =>
      simp only [ht]
      obtain ⟨us, j, h5, h6, h7, h8⟩ := hh t k ht w1
      refine ⟨ts ++ us, n + j, by rw [h5, h1, List.append_assoc], by rw [h6, h2, Nat.add_assoc], ?_, fun hf hn => ?_⟩
      · rw [List.countP_append]; omega
      · rw [h4 hf (by omega), h8 hf (by omega)]; rfl
  · exact ⟨ts, n, h1, h2, h3, h4⟩

/-- A failure pays for one report. -/
theorem count {free : Bool} {c : Nat} {m : MT σ V α} (h : Pays true (c + 1) m) : Pays free c (count ;; m) := by
  intro wt
  simp only [MT.bind, TestC.count, MT.silent, incr]
  by_cases hf : wt.w.fails + 1 < 2 ^ 31
  · simp only [if_pos hf]
    obtain ⟨ts, n, h1, h2, h3, _⟩ := h ⟨{ wt.w with fails := wt.w.fails + 1 }, wt.io⟩
    exact ⟨ts, n + 1, h1, by rw [h2]; simp only; omega, by omega, fun _ h => by omega⟩
  · simp only [if_neg hf]
    exact ⟨[], 0, (List.append_nil _).symm, rfl, Nat.zero_le _, fun _ _ => rfl⟩

theorem cout {free : Bool} {c : Nat} {ts : List (Tok V)} {m : MT σ V α} (h : Pays free c m) : Pays free c (cout ts ;; m) :=
  fun _ => h _

theorem lift {free : Bool} {c : Nat} {e : Exp σ α} {f : α → MT σ V β} (h : ∀ a, Pays free c (f a)) :
    Pays free c ((MT.lift e).bind f) := (Nat.zero_add c) ▸ bind lifts h

/-- The beginning of a report. -/
theorem head {ts : List (Tok V)} {m : MT σ V α} (ht : ts.countP Tok.isHead = 1) (h : Pays true 0 m) : Pays true 1 (cerr ts ;; m) :=
  (ht ▸ Pays.bind cerrs fun _ => h : Pays true (1 + 0) _)

/-- Other text. -/
theorem rest {ts : List (Tok V)} {c : Nat} {m : MT σ V α} (ht : ts.countP Tok.isHead = 0) (h : Pays true c m) :
    Pays true c (cerr ts ;; m) := by
  have := Pays.bind (cerrs (σ := σ) (ts := ts)) fun _ => h
  rwa [ht, Nat.zero_add] at this

theorem headLast {ts : List (Tok V)} (ht : ts.countP Tok.isHead = 1) : Pays true 1 (cerr (σ := σ) ts) := ht ▸ cerrs

theorem restLast {ts : List (Tok V)} (ht : ts.countP Tok.isHead = 0) : Pays true 0 (cerr (σ := σ) ts) := ht ▸ cerrs

theorem ite {free : Bool} {c : Nat} {b : Bool} {m m' : MT σ V α} (h : Pays free c m) (h' : Pays free c m') :
    Pays free c (if b then m else m') := by cases b <;> assumption

theorem slack {free : Bool} {c : Nat} {m : MT σ V α} (h : Pays free 0 m) : Pays free c m := h.weaken id (Nat.zero_le _)

end Pays

/-- Takes a macro apart. -/
macro "pay" : tactic => `(tactic| (
  try simp only [twoValues, twoValuesErr, oneValue, coutV, cerrV, testingCheckT, MT.assoc]
  repeat' first
    | with_reducible exact Pays.couts
    | with_reducible exact Pays.done
    | with_reducible exact Pays.lifts
    | with_reducible exact Pays.headLast (by simp [here, hereF, Tok.isHead])
    | with_reducible exact Pays.restLast (by simp [here, hereF, Tok.isHead])
    | with_reducible refine Pays.cout ?_
    | with_reducible refine Pays.count ?_
    | with_reducible refine Pays.lift fun _ => ?_
    | with_reducible refine Pays.head (by simp [here, hereF, Tok.isHead]) ?_
    | with_reducible refine Pays.rest (by simp [here, hereF, Tok.isHead]) ?_
    | with_reducible refine Pays.ite ?_ ?_))

theorem Pays.caught {free : Bool} {l : Nat} {msg us vs : List (Tok V)} (hm : ∀ t ∈ msg, t.isHead = false)
    (hu : us.countP Tok.isHead = 0) : Pays (σ := σ) free 0 (TestC.count ;; TestC.cout vs ;; cerr (here l ++ msg ++ us)) := by
  refine .count (.cout (.headLast ?_))
  have : msg.countP Tok.isHead = 0 := List.countP_eq_zero.2 (by simpa using hm)
  rw [List.countP_append, List.countP_append, this, hu]
  simp [here, Tok.isHead]

theorem Pays.catching {free : Bool} {l : Nat} {msg : List (Tok V)} {m : MT σ V Unit} (hm : ∀ t ∈ msg, t.isHead = false)
    (h : Pays free 0 m) : Pays free 0 (catchingT l msg m) := by
  refine h.tryCatch fun t k hk => ?_
  cases t with
  | std n => cases hk; exact .caught hm (by simp [Tok.isHead])
  | other n => cases hk; exact .caught hm (by simp [Tok.isHead])

theorem Pays.loop {free : Bool} {m : MT σ V Unit} (h : Pays free 0 m) : ∀ n, Pays free 0 (loopT m n)
  | 0 => .done
  | n + 1 => .bind h fun _ => Pays.loop h n

theorem pays_exec (rtl : Bool) : ∀ p : TStmt σ V, Pays p.warns 0 (execT rtl p) := by
  intro p
  induction p with
  | code e => exact .lifts
  | seq a b iha ihb =>
    exact .bind (iha.weaken (fun h => by simp [TStmt.warns, h]) (Nat.le_refl _))
      fun _ => ihb.weaken (fun h => by simp [TStmt.warns, h]) (Nat.le_refl _)
  | ite c a b iha ihb =>
    exact .lift fun r => .ite (iha.weaken (fun h => by simp [TStmt.warns, h]) (Nat.le_refl _))
      (ihb.weaken (fun h => by simp [TStmt.warns, h]) (Nat.le_refl _))
  | loop n a ih => exact fun wt => Pays.loop ih (n wt.w.u) wt
  | testClass l a ih => exact .cout (.bind (c := 0) (d := 0) (.none (fun _ => rfl) fun _ => rfl) fun _ => ih)
  | title e =>
    simp only [execT, titleT]
    refine .cout (.bind (c := 0) (d := 0) (.none (fun _ => rfl) fun _ => rfl) fun _ => ?_)
    pay
  | comment e => simp only [execT, commentT]; pay
  | warn e => simp only [execT, warnT, TStmt.warns]; pay
  | notify e => simp only [execT, warnT, TStmt.warns]; pay
  | call l a ih =>
    refine .cout (ih.tryCatch fun t k hk => ?_)
    cases t with
    | std n => cases hk; pay
    | other n => cases hk
  | skip l =>
    refine .cout (.bind (c := 0) (d := 0) (.none (fun _ => rfl) fun _ => rfl) fun _ => .couts)
  | execute l a ih => exact .cout (.bind (c := 0) (d := 0) ih fun _ => .couts)
  | try_ l a ih => exact .cout (.catching (by simp [Tok.isHead]) (.bind (c := 0) (d := 0) ih fun _ => .couts))
  | print l e => simp only [execT, printT]; pay
  | evaluate l e => exact .cout (.catching (by simp [Tok.isHead]) (by pay))
  | assert l e => simp only [execT, assertT]; pay
  | checkWarn l eq e x => simp only [execT, checkWarnT, TStmt.warns]; pay
  | check l eq e x => simp only [execT, checkT, TStmt.warns]; pay
  | same l eq e x => simp only [execT, sameT, TStmt.warns]; pay
  | sameAs l eq e x => simp only [execT, sameAsT, TStmt.warns]; pay
  | equal l eq e x => simp only [execT, equalT, TStmt.warns]; pay
  | notEqual l eq e x => simp only [execT, notEqualT, TStmt.warns]; pay
  | equals l eq e x => simp only [execT, equalsT, TStmt.warns]; pay
  | within l d le e x t => simp only [execT, withinT, TStmt.warns]; pay
  | less l lt e x => simp only [execT, lessT, TStmt.warns]; pay
  | unaryPredicate l p a => simp only [execT, unaryPredicateT, TStmt.warns]; pay
  | binaryPredicate l p a1 a2 => simp only [execT, binaryPredicateT, TStmt.warns]; pay
  | compare l c e x => simp only [execT, compareT, TStmt.warns]; pay
  | resultCompare l c e x => simp only [execT, resultCompareT, TStmt.warns]; pay
  | declare how l c =>
    exact .cout (.bind (c := 0) (d := 0) (.catching (how.noHead l) (by pay)) fun _ => .lift fun _ => .done)
  | construct b l c => exact .cout (.lift fun _ => .couts)
  | assign l a => exact .cout (.catching (by simp [Tok.isHead]) (by pay))
  | throws l err a ih =>
    refine .cout (.tryCatch (.bind (c := 0) (d := 0) ih fun _ => by pay) fun t k hk => ?_)
    by_cases he : err t
    · simp only [if_pos he] at hk; cases hk; exact .couts
    · simp only [if_neg he] at hk
      cases t with
      | std n => cases hk; pay
      | other n => cases hk
  | fail l a ih =>
    refine .cout (.tryCatch (.bind (c := 0) (d := 0) ih fun _ => by pay) fun t k hk => ?_)
    cases hk; exact .couts
  | staticAssert k l b =>
    refine .cout (.ite .couts (.count (.bind (c := 0) (d := 1) (.none (fun _ => rfl) fun _ => rfl) fun _ wt => ?_)))
    refine ⟨hereF l ++ [.cls wt.io.cls, .lit ": "] ++ k.msg l ++ [.lit "\n"], 0, rfl, rfl, ?_, fun h => nomatch h⟩
    cases k <;> simp [hereF, Static.msg, Tok.isHead]

/-! ## Counting -/

theorem length_check (l : Nat) (v : Exp σ Bool) (a b : List (Exp σ Unit)) (s : σ) :
    (blame.check l v s).length = (chk v a b s).total := by
  simp only [blame.check, chk]
  match v s with
  | (.val true, _) => rfl
  | (.val false, _) => rfl
  | (.thrown _, _) => rfl

theorem length_rounds {r : S σ} {f : σ → List Nat} (h : ∀ s, (f s).length = (r s).total) : ∀ n s,
    (rounds r f n s).length = (times r n s).total
  | 0, _ => rfl
  | n + 1, s => by
    rw [rounds_succ]
    simp only [times, andThen]
    cases (r s).out with
    | thrown t => exact h s
    | val a =>
      simp only [List.length_append, h s, length_rounds h n]
      simp only [Run.total]; omega

/-- The sites of `blame` are as many as the failures of the spec. -/
theorem blame_length (rtl : Bool) (p : TStmt σ V) : ∀ s, (blame rtl p s).length = (run rtl p.erase s).total := by
  induction p with
  | code e => exact fun _ => rfl
  | seq a b iha ihb =>
    intro s
    rw [blame_seq]
    simp only [TStmt.erase, Spec.run, andThen]
    cases (Spec.run rtl a.erase s).out with
    | thrown t => exact iha s
    | val v => simp only [List.length_append, iha, ihb]; simp only [Run.total]; omega
  | ite c a b iha ihb =>
    intro s
    simp only [blame, TStmt.erase, Spec.run]
    match c s with
    | (.val true, s') => exact iha s'
    | (.val false, s') => exact ihb s'
    | (.thrown _, s') => rfl
  | loop n a ih => exact fun s => length_rounds ih (n s) s
  | testClass l a ih => exact ih
  | title e => exact fun _ => rfl
  | comment e => exact fun _ => rfl
  | warn e =>
    intro s
    simp only [blame, TStmt.erase, Spec.run, andThen, plain]
    cases (ev e s).1 <;> rfl
  | notify e =>
    intro s
    simp only [blame, TStmt.erase, Spec.run, andThen, plain]
    cases (ev e s).1 <;> rfl
  | call l a ih =>
    intro s
    have := ih s
    simp only [blame, TStmt.erase, Spec.run, callS]
    rcases hr : Spec.run rtl a.erase s with ⟨f, e, k, _ | ⟨_ | _⟩, u⟩ <;> rw [hr] at this <;> simp only [Run.total] at this <;>
      simp only [List.length_append, List.length_cons, List.length_nil, Run.total] <;> omega
  | skip l => exact fun _ => rfl
  | execute l a ih => exact ih
  | try_ l a ih =>
    intro s
    have := ih s
    simp only [blame, TStmt.erase, Spec.run, noThrow]
    rcases hr : Spec.run rtl a.erase s with ⟨f, e, k, _ | _, u⟩ <;> rw [hr] at this <;> simp only [Run.total] at this <;>
      simp only [List.length_append, List.length_cons, List.length_nil, Run.total] <;> omega
  | print l e => exact fun _ => rfl
  | evaluate l e =>
    intro s
    simp only [blame, blame.thrower, TStmt.erase, Spec.run, noThrow, plain, ev]
    match e s with
    | (.val _, _) => rfl
    | (.thrown _, _) => rfl
  | assert l e => exact length_check l _ _ _
  | checkWarn l eq e x =>
    intro s
    simp only [blame, TStmt.erase, Spec.run]
    match rel rtl eq e x s with
    | (.val true, _) => rfl
    | (.val false, _) => rfl
    | (.thrown _, _) => rfl
  | check l eq e x => exact length_check l _ _ _
  | same l eq e x => exact length_check l _ _ _
  | sameAs l eq e x => exact length_check l _ _ _
  | equal l eq e x => exact length_check l _ _ _
  | notEqual l eq e x => exact length_check l _ _ _
  | equals l eq e x => exact length_check l _ _ _
  | within l d le e x t => exact length_check l _ _ _
  | less l lt e x => exact length_check l _ _ _
  | unaryPredicate l p a => exact length_check l _ _ _
  | binaryPredicate l p a1 a2 => exact length_check l _ _ _
  | compare l c e x => exact length_check l _ _ _
  | resultCompare l c e x => exact length_check l _ _ _
  | declare how l c =>
    intro s
    simp only [blame, blame.thrower, TStmt.erase, Spec.run, noThrow, andThen, plain, Exp.bind, Exp.pure]
    match c s with
    | (.val _, _) => rfl
    | (.thrown _, _) => rfl
  | construct b l c => exact fun _ => rfl
  | assign l a =>
    intro s
    simp only [blame, blame.thrower, TStmt.erase, Spec.run, noThrow, plain, Exp.bind, Exp.pure]
    match a s with
    | (.val _, _) => rfl
    | (.thrown _, _) => rfl
  | throws l err a ih =>
    intro s
    have := ih s
    simp only [blame, TStmt.erase, Spec.run, throwsS]
    rcases hr : Spec.run rtl a.erase s with ⟨f, e, k, _ | ⟨n | n⟩, u⟩ <;> rw [hr] at this <;> simp only [Run.total] at this
    · simp only [List.length_append, List.length_cons, List.length_nil, Run.total]; omega
    · by_cases he : err (.std n) <;> simp only [he, if_true, if_false, Bool.false_eq_true, List.length_append, List.length_cons,
        List.length_nil, Run.total] <;> omega
    · by_cases he : err (.other n) <;> simp only [he, if_true, if_false, Bool.false_eq_true, Run.total] <;> omega
  | fail l a ih =>
    intro s
    have := ih s
    simp only [blame, TStmt.erase, Spec.run, failS]
    rcases hr : Spec.run rtl a.erase s with ⟨f, e, k, _ | _, u⟩ <;> rw [hr] at this <;> simp only [Run.total] at this <;>
      simp only [List.length_append, List.length_cons, List.length_nil, Run.total] <;> omega
  | staticAssert k l b =>
    intro s
    cases b <;> rfl

/-! ## C90 -/

/-- C90: the texts do not change what a program does: the result, the failure counter and the state are those of the model
without texts. -/
theorem C90_erase (rtl : Bool) (p : TStmt σ V) (wt : WT σ V) :
    ((execT rtl p wt).1, (execT rtl p wt).2.w) = exec rtl p.erase wt.w :=
  Prod.ext (execT_erase rtl p wt).1 (execT_erase rtl p wt).2

/-- C90 for programs whose messages evaluate without an exception: each failure that is counted is reported on `std::cerr` with
the file and the line of the macro, in the order of the failures, and nothing else is written there but warnings and
notifications. -/
theorem C90_reports_partial (rtl : Bool) (p : TStmt σ V) (hq : Quiet p) (wt : WT σ V)
    (h : wt.w.fails + (run rtl p.erase wt.w.u).total < 2 ^ 31) :
    ∃ ts, (execT rtl p wt).2.io.err = wt.io.err ++ ts ∧ Reports p.warns (blame rtl p wt.w.u) ts ∧
      (execT rtl p wt).2.w.fails = wt.w.fails + (blame rtl p wt.w.u).length := by
  obtain ⟨ts, h1, h2⟩ := says_exec rtl p hq wt h
  exact ⟨ts, h1, h2, by rw [(outcome rtl p h).2, blame_length]⟩

/-- C90: there are never more reports than failures counted. -/
theorem C90_atMost (rtl : Bool) (p : TStmt σ V) (wt : WT σ V) : ∃ ts, (execT rtl p wt).2.io.err = wt.io.err ++ ts ∧
    wt.w.fails + ts.countP Tok.isHead ≤ (execT rtl p wt).2.w.fails := by
  obtain ⟨ts, n, h1, h2, h3, _⟩ := pays_exec rtl p wt
  exact ⟨ts, h1, by omega⟩

/-- C90: a program without `HELPER_TEST_WARN`, `HELPER_TEST_NOTIFY` and `HELPER_TEST_CHECK_WARN` that counts no failure writes
nothing to `std::cerr`. -/
theorem C90_silent (rtl : Bool) (p : TStmt σ V) (hw : p.warns = false) (wt : WT σ V)
    (h : (execT rtl p wt).2.w.fails = wt.w.fails) : (execT rtl p wt).2.io.err = wt.io.err := by
  obtain ⟨ts, n, h1, h2, _, h4⟩ := pays_exec rtl p wt
  rw [h1, h4 hw (by omega), List.append_nil]

/-- The value the first time, an exception afterwards. -/
def once (v : Nat) : Exp Bool Nat := fun s => if s then (.thrown (.std 0), s) else (.val v, true)

/-- C90 is false in general: a check whose expression throws when it is evaluated again for the message is counted but not
reported. -/
theorem C90_refuted : ∃ (p : TStmt Bool Nat) (wt : WT Bool Nat),
    (execT false p wt).2.w.fails = wt.w.fails + 1 ∧ (execT false p wt).2.io.err = wt.io.err :=
  ⟨.equal 7 (fun a b => .pure (a == b)) (once 1) (.pure 2), ⟨⟨false, 0, 0⟩, ⟨[], [], none, 0⟩⟩, by decide +kernel⟩

/-- A failed check after one that passes, in a call that ends with an exception. -/
def sample : TStmt Nat Nat :=
  .seq (.testClass 1 (.call 2 (.seq (.equal 3 (fun a b => .pure (a == b)) (.pure 1) (.pure 1))
    (.seq (.assert 4 (.pure false)) (.code fun s => (.thrown (.std 0), s)))))) (.throws 5 (fun _ => true) (.code (.pure ())))

example : blame false sample 0 = [4, 2, 5] := by decide +kernel

example : Quiet sample ∧ sample.warns = false ∧ (0 + (run false sample.erase 0).total < 2 ^ 31) :=
  ⟨⟨⟨⟨fun _ => ⟨_, _, rfl⟩, fun _ => ⟨_, _, rfl⟩⟩, trivial, trivial⟩, trivial⟩, rfl, by decide +kernel⟩

example : ((execT false sample ⟨⟨0, 0, 0⟩, ⟨[], [], none, 0⟩⟩).2.io.err).countP Tok.isHead = 3 := by decide +kernel

example : (execT false (.equal 3 (fun a b => .pure (a == b)) (.pure 1) (.pure 1)) ⟨⟨0, 0, 0⟩, ⟨[], [], none, 0⟩⟩ :
    R Unit × WT Nat Nat).2.w.fails = 0 := by decide +kernel

end Helper.TestC
