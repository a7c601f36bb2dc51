import Verif.Stmts.Expand
/-!
# Property C96: statement macros can be used as statements
-/
set_option linter.unusedSectionVars false
namespace Helper.Stmts

variable {σ : Type}

/-! ## How statements are read -/

/-- C96: the body of a function is read as the one list of statements whose text it is and in which every `else` belongs to the
nearest `if`. -/
theorem C96_reading (ts : List Tok) (l : Ss) : parseBody ts = some l ↔ l.nice = true ∧ l.toks = ts := parseBody_iff ts l

example : parseBody [.if_ (.usr 0), .if_ (.usr 1), .semi, .else_, .act (.usr 2)] =
    some (.one (.ifThen (.usr 0) (.ifElse (.usr 1) .empty (.act (.usr 2))))) :=
  (C96_reading _ _).2 ⟨rfl, rfl⟩

/-! ## More fuel does no harm -/

mutual
theorem parseS_mono : ∀ (n : Nat) (ts : List Tok) (x : S × List Tok), parseS n ts = some x → parseS (n + 1) ts = some x
  | 0, _, _, h => by rw [parseS] at h; cases h
  | n + 1, [], _, h => by simp [parseS] at h
  | n + 1, .semi :: r, x, h => by simpa [parseS] using h
  | n + 1, .act a :: r, x, h => by simpa [parseS] using h
  | n + 1, .decl i :: r, x, h => by simpa [parseS] using h
  | n + 1, .rb :: r, x, h => by simp [parseS] at h
  | n + 1, .else_ :: r, x, h => by simp [parseS] at h
  | n + 1, .lb :: r, x, h => by
    cases hp : parseSs n r with
    | none => simp [parseS, hp] at h
    | some y =>
      have := parseSs_mono n r y hp
      rw [parseS] at h ⊢
      simp only [hp, this] at h ⊢
      exact h
  | n + 1, .if_ c :: r, x, h => by
    cases hp : parseS n r with
    | none => simp [parseS, hp] at h
    | some y =>
      obtain ⟨t, q⟩ := y
      have h1 := parseS_mono n r _ hp
      by_cases hq : NoElse q
      · rw [parseS_if_open hp hq] at h
        rw [parseS_if_open h1 hq, h]
      · have : ∃ q', q = .else_ :: q' := Classical.byContradiction fun hc => hq fun r' h' => hc ⟨r', h'⟩
        obtain ⟨q', e⟩ := this
        rw [e] at hp h1
        cases hp' : parseS n q' with
        | none => simp [parseS, hp, hp'] at h
        | some z =>
          have h2 := parseS_mono n q' z hp'
          rw [parseS] at h ⊢
          simp only [hp, h1, hp', h2] at h ⊢
          exact h
theorem parseSs_mono : ∀ (n : Nat) (ts : List Tok) (x : Ss × List Tok), parseSs n ts = some x → parseSs (n + 1) ts = some x
  | 0, _, _, h => by rw [parseSs] at h; cases h
  | n + 1, ts, x, h => by
    by_cases hrb : ∃ r', ts = .rb :: r'
    · obtain ⟨r', e⟩ := hrb
      rw [e] at h ⊢
      simpa [parseSs] using h
    · have hne := fun r' h' => hrb ⟨r', h'⟩
      rw [parseSs_cons hne] at h ⊢
      cases hp : parseS n ts with
      | none => rw [hp] at h; cases h
      | some y =>
        obtain ⟨s, q⟩ := y
        have h1 := parseS_mono n ts _ hp
        rw [hp] at h
        rw [h1]
        simp only at h ⊢
        cases hp' : parseSs n q with
        | none => rw [hp'] at h; cases h
        | some z =>
          have h2 := parseSs_mono n q z hp'
          rw [hp'] at h
          rw [h2]
          exact h
end

theorem parseS_add (n k : Nat) (ts : List Tok) (x : S × List Tok) (h : parseS n ts = some x) : parseS (n + k) ts = some x := by
  induction k with
  | zero => exact h
  | succ k ih => exact parseS_mono _ _ _ ih

/-- With too little fuel a statement is not read; it is never read differently. -/
theorem parseS_toks_any {s : S} {r : List Tok} (hn : s.nice = true) (ho : s.opens = true → NoElse r) (n : Nat) (x : S × List Tok)
    (h : parseS n (s.toks ++ r) = some x) : x = (s, r) := by
  have h1 := parseS_add n s.depth _ _ h
  rw [parseS_toks s _ r hn (by omega) ho] at h1
  exact (Option.some.inj h1).symm

/-! ## Semicolons before `else` -/

/-- What is left after reading a statement starts with a semicolon and `else`. -/
def Stuck (x : Option (S × List Tok)) : Prop := ∀ s r, x = some (s, r) → ∃ r', r = .semi :: .else_ :: r'

theorem stuck_none : Stuck none := fun _ _ h => by cases h

theorem noElse_semi (r : List Tok) : NoElse (.semi :: r) := fun _ h => by cases h

/-- After `if(c)`. -/
theorem Stuck.ifThen {n : Nat} {c : Cond} {ts : List Tok} (h : Stuck (parseS n ts)) : Stuck (parseS (n + 1) (.if_ c :: ts)) := by
  cases hp : parseS n ts with
  | none => simp only [parseS, hp]; exact stuck_none
  | some x =>
    obtain ⟨t, r⟩ := x
    obtain ⟨r', e⟩ := h t r hp
    rw [parseS_if_open hp (by rw [e]; exact noElse_semi _)]
    intro s q hq
    cases hq
    exact ⟨r', e⟩

/-- After `if(c) t else`. -/
theorem Stuck.ifElse {n : Nat} {c : Cond} {t : S} {ts : List Tok} (hn : t.nice = true) (ho : t.opens = false)
    (h : Stuck (parseS n ts)) : Stuck (parseS (n + 1) (.if_ c :: (t.toks ++ .else_ :: ts))) := by
  cases hp : parseS n (t.toks ++ .else_ :: ts) with
  | none => simp only [parseS, hp]; exact stuck_none
  | some x =>
    have := parseS_toks_any hn (fun h => by rw [ho] at h; cases h) n x hp
    rw [this] at hp
    cases hp' : parseS n ts with
    | none => simp only [parseS, hp, hp']; exact stuck_none
    | some y =>
      obtain ⟨s', q⟩ := y
      intro s r hs
      simp only [parseS, hp, hp', Option.some.injEq, Prod.mk.injEq] at hs
      rw [← hs.2]
      exact h s' q hp'

/-- A list of statements that starts with a stuck one is not read. -/
theorem Stuck.list {n : Nat} {ts : List Tok} (hrb : ∀ r, ts ≠ .rb :: r) (h : Stuck (parseS n ts)) : parseSs (n + 1) ts = none := by
  rw [parseSs_cons hrb]
  cases hp : parseS n ts with
  | none => rfl
  | some x =>
    obtain ⟨s, r⟩ := x
    obtain ⟨r', e⟩ := h s r hp
    simp only
    have : parseSs n (.semi :: .else_ :: r') = none := by
      cases n with
      | zero => rfl
      | succ n =>
        rw [parseSs_cons (by simp)]
        cases n with
        | zero => rfl
        | succ n =>
          simp only [parseS]
          cases n with
          | zero => rfl
          | succ n => rw [parseSs_cons (by simp)]; simp only [parseS]
    rw [e, this]

theorem Src.toks_rb (s : Src) (r r' : List Tok) : s.toks ++ r ≠ .rb :: r' := by
  intro h
  cases s with
  | use k b => cases k <;> simp [Src.toks, Mac.toks] at h
  | _ => simp [Src.toks] at h

theorem semiToks_noElse {b : Bool} {r : List Tok} (h : NoElse r) : NoElse (semiToks b ++ r) := by
  cases b
  · exact h
  · exact noElse_semi _

theorem Srcs.noElse : ∀ (l : Srcs) (r : List Tok), NoElse (l.toks ++ .rb :: r)
  | .nil, r => fun r' h => by simp [Srcs.toks] at h
  | .cons s l, r => fun r' h => by
    cases s with
    | use k b => cases k <;> simp [Srcs.toks, Src.toks, Mac.toks, throwToks] at h
    | _ => simp [Srcs.toks, Src.toks] at h

theorem S.toks_rb (s : S) (r r' : List Tok) : s.toks ++ r ≠ .rb :: r' := by
  intro h
  obtain ⟨a, t, e, ha, _⟩ := s.toks_ne
  rw [e] at h
  exact ha (by injection h)

theorem noElse_append : ∀ (l : Ss) {ts : List Tok}, NoElse ts → NoElse (l.toks ++ ts)
  | .nil, _, h => h
  | .cons s l, ts, _ => fun r' h => by
    obtain ⟨a, t, e, _, ha⟩ := s.toks_ne
    rw [Ss.toks, e] at h
    exact ha (by injection h)

/-- Statements before a text that is not read do not help. -/
theorem parseSs_prefix : ∀ (l : Ss) (ts : List Tok), l.nice = true → NoElse ts → ∀ (N : Nat), (∀ n, n ≤ N → parseSs n ts = none) →
    ∀ n, n ≤ N → parseSs n (l.toks ++ ts) = none
  | .nil, ts, _, _, _, h, n, hn => h n hn
  | .cons s l, ts, hn, hr, _, _, 0, _ => rfl
  | .cons s l, ts, hn, hr, N, h, n + 1, hN => by
    simp only [Ss.nice, Bool.and_eq_true] at hn
    rw [Ss.toks, List.append_assoc, parseSs_cons (s.toks_rb _)]
    cases hp : parseS n (s.toks ++ (l.toks ++ ts)) with
    | none => rfl
    | some x =>
      have := parseS_toks_any hn.1 (fun _ => noElse_append l hr) n x hp
      rw [this]
      simp only [parseSs_prefix l ts hn.2 hr N h n (by omega)]

mutual
theorem Src.stuck : ∀ (s : Src) (n : Nat) (r : List Tok), s.shape = true → s.semis = false → (s.opens = true → NoElse r) →
    Stuck (parseS n (s.toks ++ r))
  | s, 0, r, _, _, _ => by rw [parseS]; exact stuck_none
  | .code _, n + 1, _, _, h, _ => by cases h
  | .use _ _, n + 1, _, _, h, _ => by cases h
  | .block l, n + 1, r, hs, hm, _ => by
    have := l.stuck n r hs hm
    simp only [Src.toks, List.cons_append, List.append_assoc, List.nil_append, parseS, this]
    exact stuck_none
  | .ifThen c t, n + 1, r, hs, hm, hr => by
    have := t.stuck n r hs hm (fun _ => hr rfl)
    simp only [Src.toks, List.cons_append]
    exact this.ifThen
  | .ifElse c t e, n + 1, r, hs, hm, hr => by
    simp only [Src.shape, Bool.and_eq_true, Bool.not_eq_true'] at hs
    simp only [Src.toks, List.cons_append, List.append_assoc]
    cases hmt : t.semis with
    | false =>
      have key : Stuck (parseS n (t.toks ++ .else_ :: (e.toks ++ r))) := t.stuck n _ hs.1.1 hmt (fun h => by rw [hs.1.2] at h; cases h)
      exact key.ifThen
    | true =>
      rw [t.exp_toks hs.1.1 hmt]
      cases htr : t.trail with
      | true =>
        have key : Stuck (parseS n (t.exp.toks ++ (semiToks true ++ .else_ :: (e.toks ++ r)))) := by
          intro s q hq
          have := parseS_toks_any (r := .semi :: .else_ :: (e.toks ++ r)) (t.exp_nice hs.1.1) (fun _ => noElse_semi _) n _ hq
          injection this with h1 h2
          exact ⟨_, h2⟩
        simp only [List.append_assoc]
        exact key.ifThen
      | false =>
        have hme : e.semis = false := by simpa [Src.semis, hmt, htr] using hm
        have := (e.stuck n r hs.2 hme hr).ifElse (c := .usr c) (t.exp_nice hs.1.1) (by rw [t.exp_opens]; exact hs.1.2)
        simpa [semiToks] using this
theorem Srcs.stuck : ∀ (l : Srcs) (n : Nat) (r : List Tok), l.shape = true → l.semis = false → parseSs n (l.toks ++ .rb :: r) = none
  | _, 0, _, _, _ => by rw [parseSs]
  | .nil, n + 1, _, _, h => by cases h
  | .cons s l, n + 1, r, hs, hm => by
    have hs' : l.shape = true := by cases s <;> simp [Srcs.shape] at hs <;> simp [hs]
    cases hms : s.semis with
    | false =>
      have hss : s.shape = true := by
        cases s with
        | use k b => cases hms
        | _ => simp only [Srcs.shape, Bool.and_eq_true] at hs; exact hs.1
      rw [Srcs.toks, List.append_assoc]
      exact (s.stuck n _ hss hms (fun _ => l.noElse r)).list (s.toks_rb _)
    | true =>
      have hml : l.semis = false := by simpa [Srcs.semis, hms] using hm
      have e : s.toks = (Srcs.cons s .nil).exp.toks := by
        have := (Srcs.cons s .nil).exp_toks (by cases s <;> simp [Srcs.shape] at hs ⊢ <;> simp [hs]) (by simp [Srcs.semis, hms])
        rw [← this]; simp [Srcs.toks]
      rw [Srcs.toks, e, List.append_assoc]
      exact parseSs_prefix _ _ ((Srcs.cons s .nil).exp_nice (by cases s <;> simp [Srcs.shape] at hs ⊢ <;> simp [hs])) (l.noElse r) (n + 1)
        (fun n' _ => l.stuck n' r hs' hml) (n + 1) (Nat.le_refl _)
end

/-! ## Which programs compile, and what they do -/

theorem parseBody_exp {l : Srcs} (hs : l.shape = true) (hm : l.semis = true) : parseBody l.toks = some l.exp :=
  (parseBody_iff _ _).2 ⟨l.exp_nice hs, (l.exp_toks hs hm).symm⟩

theorem compile_exp {l : Srcs} (hs : l.shape = true) (hm : l.semis = true) :
    l.compile = if l.single false then some l.exp else none := by
  rw [Srcs.compile, parseBody_exp hs hm]
  simp only [l.exp_wf false false hs]

/-- C96: a program in which the macros that print once stand directly in blocks compiles iff no `else` follows the semicolon
after a macro, and no block contains two macros that print once. -/
theorem C96_compiles_iff (l : Srcs) (hs : l.shape = true) : l.compile ≠ none ↔ l.semis = true ∧ l.single false = true := by
  cases hm : l.semis with
  | true => rw [compile_exp hs hm]; cases l.single false <;> simp
  | false =>
    have : parseBody l.toks = none := by rw [parseBody, l.stuck _ [] hs hm]
    simp [Srcs.compile, this]

/-- C96: and then every call of the function does what it should, whatever is in the program's state. -/
theorem C96_meaning_partial (l : Srcs) (hs : l.shape = true) (hm : l.semis = true) (h1 : l.single false = true) :
    ∃ b, l.compile = some b ∧ ∀ (σ : Type) (P : User σ) (st : St σ), b.run P none st = l.means P st := by
  refine ⟨l.exp, by rw [compile_exp hs hm, if_pos h1], fun σ P st => l.exp_run P none st hs⟩

/-- A list of statements, for examples. -/
def Srcs.of : List Src → Srcs
  | [] => .nil
  | s :: l => .cons s (.of l)

/-- The state at the start, and the user code for examples: conditions and statements on a number. -/
def St.init (u : σ) : St σ := ⟨u, fun _ => false, []⟩

def counting : User Nat := ⟨fun c u => decide (c < u), fun a u => u + a⟩

/-- `if(c) HELPER_WARN(..) else { HELPER_WARN_ONCE(..); f(); } HELPER_ASSERT(..);` -/
example : let l := Srcs.of [.ifElse 5 (.use (.note "large") false) (.block (.of [.use (.once 0 "small") true, .code 3])),
      .use (.check 1 "assertion") true]
    l.shape = true ∧ l.semis = true ∧ l.single false = true ∧
    (l.means counting (St.init 3)).1 = none ∧ (l.means counting (St.init 3)).2.out = ["small"] ∧
    (l.means counting (l.means counting (St.init 3)).2).2.out = ["small", "large"] := by decide +kernel

/-- C96 is false: `if(c) HELPER_WARN(m); else f();` does not compile, nor does it with any other macro in place of
`HELPER_WARN`, although it would with a statement. -/
theorem C96_else_refuted (k : Mac) (hk : k.isMany = false) (c a : Nat) :
    (Srcs.of [.ifElse c (.use k true) (.code a)]).compile = none ∧
    (Srcs.of [.ifElse c (.use k false) (.code a)]).compile ≠ none ∧
    (Srcs.of [.ifElse c (.code a) (.code a)]).compile ≠ none := by
  have h1 : (Srcs.of [.ifElse c (.use k true) (.code a)]).shape = true := by simp [Srcs.of, Srcs.shape, Src.shape, hk, Src.opens]
  have h2 : (Srcs.of [.ifElse c (.use k false) (.code a)]).shape = true := by simp [Srcs.of, Srcs.shape, Src.shape, hk, Src.opens]
  refine ⟨?_, (C96_compiles_iff _ h2).2 ⟨rfl, rfl⟩, (C96_compiles_iff _ rfl).2 ⟨rfl, rfl⟩⟩
  apply Classical.byContradiction
  intro h
  have := ((C96_compiles_iff _ h1).1 h).1
  simp [Srcs.of, Srcs.semis, Src.semis, Src.trail] at this

/-- C96 is false: two macros that print once do not fit in one block. -/
theorem C96_two_refuted (i j : Nat) (m m' : String) (b b' : Bool) :
    (Srcs.of [.use (.once i m) b, .use (.once j m') b']).compile = none := by
  apply Classical.byContradiction
  intro h
  have := ((C96_compiles_iff _ rfl).1 h).2
  simp [Srcs.of, Srcs.single] at this

/-! ## Macros that print once after `if` -/

/-- The statements of `HELPER_WARN_ONCE` after its declaration. -/
def onceIf (m : String) : S := .ifThen .flag (.block (.cons (.act .clear) (.one (.act (.emit m)))))

/-- The same with `else`. -/
def onceIfElse (m : String) (e : S) : S := .ifElse .flag (.block (.cons (.act .clear) (.one (.act (.emit m))))) e

def Ss.append : Ss → Ss → Ss
  | .nil, r => r
  | .cons s l, r => .cons s (l.append r)

theorem Ss.append_toks : ∀ l r : Ss, (l.append r).toks = l.toks ++ r.toks
  | .nil, r => rfl
  | .cons s l, r => by simp [Ss.append, Ss.toks, l.append_toks r]

theorem Ss.append_nice : ∀ l r : Ss, (l.append r).nice = (l.nice && r.nice)
  | .nil, r => rfl
  | .cons s l, r => by simp [Ss.append, Ss.nice, l.append_nice r, Bool.and_assoc]

def Srcs.append : Srcs → Srcs → Srcs
  | .nil, r => r
  | .cons s l, r => .cons s (l.append r)

theorem Srcs.append_toks : ∀ l r : Srcs, (l.append r).toks = l.toks ++ r.toks
  | .nil, r => rfl
  | .cons s l, r => by simp [Srcs.append, Srcs.toks, l.append_toks r]

/-- No macro that prints once directly in this block. -/
def Srcs.noOnce : Srcs → Bool
  | .nil => true
  | .cons (.use (.once _ _) _) _ => false
  | .cons _ l => l.noOnce

theorem semiIf_append (b : Bool) (l r : Ss) : (semiIf b l).append r = semiIf b (l.append r) := by cases b <;> rfl

/-- Statements without such a macro do not make the variable visible. -/
theorem wf_append_noOnce : ∀ (l : Srcs) (r : Ss) (v : Bool), l.noOnce = true → (l.exp.append r).wf v false = true → r.wf v false = true
  | .nil, r, v, _, h => h
  | .cons s l, r, v, hn, h => by
    have hl : l.noOnce = true := by
      cases s with
      | use k b => cases k <;> first | exact hn | cases hn
      | _ => exact hn
    have he : (Srcs.cons s l).exp = .cons s.exp (semiIf s.trail l.exp) ∨ (∃ a t q b, s = .use (.construct a t q) b) ∨
        (∃ a t q b, s = .use (.declare a t q) b) := by
      cases s with
      | use k b =>
        cases k with
        | once => cases hn
        | construct a t q => exact .inr (.inl ⟨_, _, _, _, rfl⟩)
        | declare a t q => exact .inr (.inr ⟨_, _, _, _, rfl⟩)
        | _ => exact .inl rfl
      | _ => exact .inl rfl
    rcases he with he | ⟨a, t, q, b, rfl⟩ | ⟨a, t, q, b, rfl⟩
    · rw [he, Ss.append, Ss.wf_cons s.exp_decl, semiIf_append, semiIf_wf, Bool.and_eq_true] at h
      exact wf_append_noOnce l r v hl h.2
    · simp only [Srcs.exp, Ss.append, Ss.wf, S.wf, Act.wf, semiIf_append, semiIf_wf, Bool.true_and] at h
      exact wf_append_noOnce l r v hl h
    · simp only [Srcs.exp, Ss.append, Ss.wf, S.wf, Act.wf, Ss.one, semiIf_append, semiIf_wf, Bool.true_and] at h
      exact wf_append_noOnce l r v hl h

/-- C96 is false: `if(c) HELPER_WARN_ONCE(m);` does not compile unless the block already contains such a macro. -/
theorem C96_once_if_refuted (l r : Srcs) (c i : Nat) (m : String) (b : Bool) (hl : l.shape = true) (hm : l.semis = true)
    (hn : l.noOnce = true) (hr : r.shape = true) (hmr : r.semis = true) :
    (l.append (.cons (.ifThen c (.use (.once i m) b)) r)).compile = none := by
  have hp : parseBody (l.append (.cons (.ifThen c (.use (.once i m) b)) r)).toks =
      some (l.exp.append (.cons (.ifThen (.usr c) (.decl i)) (.cons (onceIf m) (semiIf b r.exp)))) := by
    rw [parseBody_iff]
    constructor
    · simp [Ss.append_nice, l.exp_nice hl, Ss.nice, S.nice, onceIf, Ss.one, semiIf_nice, r.exp_nice hr]
    · rw [Ss.append_toks, Srcs.append_toks, l.exp_toks hl hm]
      simp only [Srcs.toks, Src.toks, r.exp_toks hr hmr, Ss.toks, S.toks, onceIf, Ss.one, semiIf_toks, Mac.toks, semiToks]
      simp
  rw [Srcs.compile, hp]
  simp only
  split
  · rename_i hw
    have := wf_append_noOnce l _ false hn hw
    simp [Ss.wf, S.wf, onceIf, Cond.wf] at this
  · rfl

example : (Srcs.of [.ifThen 0 (.use (.once 0 "m") true)]).compile = none := C96_once_if_refuted .nil .nil 0 0 "m" true rfl rfl rfl rfl rfl

/-- The message of the first macro is written or has been; after it the variable is false. -/
theorem once_used (P : User σ) (st : St σ) (j : Nat) (m : String) : ∃ st', (Mac.once j m).means P st = (none, st') ∧ st'.used j = true := by
  simp only [Mac.means]
  split
  · rename_i h; exact ⟨_, rfl, h⟩
  · exact ⟨_, rfl, by simp⟩

/-- C96 is false: after another such macro in the same block, `if(c) HELPER_WARN_ONCE(m);` compiles but never writes its
message: it asks the variable of the other one. -/
theorem C96_once_if_silent (r : Srcs) (c i j : Nat) (m m' : String) (b b' : Bool) (hr : r.shape = true) (hmr : r.semis = true)
    (h1 : r.single true = true) :
    ∃ p, (Srcs.cons (.use (.once j m') b') (.cons (.ifThen c (.use (.once i m) b)) r)).compile = some p ∧
      ∀ (σ : Type) (P : User σ) (st : St σ), p.run P none st = (Srcs.cons (.use (.once j m') b') r).means P st := by
  refine ⟨.cons (.decl j) (.cons (onceIf m') (semiIf b' (.cons (.ifThen (.usr c) (.decl i)) (.cons (onceIf m) (semiIf b r.exp))))), ?_, ?_⟩
  · rw [Srcs.compile, (parseBody_iff _ (.cons (.decl j) (.cons (onceIf m') (semiIf b' (.cons (.ifThen (.usr c) (.decl i))
      (.cons (onceIf m) (semiIf b r.exp))))))).2]
    · simp [Ss.wf, S.wf, onceIf, semiIf_wf, Cond.wf, Act.wf, Ss.one, r.exp_wf true true hr, h1]
    · constructor
      · simp [Ss.nice, S.nice, onceIf, Ss.one, semiIf_nice, r.exp_nice hr]
      · simp only [Srcs.toks, Src.toks, r.exp_toks hr hmr, Ss.toks, S.toks, onceIf, Ss.one, semiIf_toks, Mac.toks, semiToks]
        simp
  · intro σ P st
    obtain ⟨st', e, hu⟩ := once_used P st j m'
    have hrun : (onceIf m').run P (some j) st = (none, st') := by
      rw [← e]
      cases h : st.used j <;> simp [onceIf, S.run, Ss.run, Ss.one, Cond.eval, Act.run, Mac.means, h]
    simp only [Ss.run, onceIf] at hrun ⊢
    simp only [hrun, Srcs.means, Src.means, e, semiIf_run]
    cases hc : P.cond c st'.u <;> simp [Ss.run, S.run, Cond.eval, hc, hu, semiIf_run, r.exp_run P (some j) st' hr]

/-- C96 is false: with an `else` after it, the other branch is taken whatever the condition is. -/
theorem C96_once_else_taken (r : Srcs) (e : Src) (c i j : Nat) (m m' : String) (b' : Bool) (he : e.shape = true) (hme : e.semis = true)
    (h1e : e.single = true) (hr : r.shape = true) (hmr : r.semis = true) (h1 : r.single true = true) :
    ∃ p, (Srcs.cons (.use (.once j m') b') (.cons (.ifElse c (.use (.once i m) false) e) r)).compile = some p ∧
      ∀ (σ : Type) (P : User σ) (st : St σ), p.run P none st =
        match (Mac.once j m').means P st with
        | (none, st1) => match e.means P st1 with
          | (none, st2) => r.means P st2
          | x => x
        | x => x := by
  refine ⟨.cons (.decl j) (.cons (onceIf m') (semiIf b' (.cons (.ifThen (.usr c) (.decl i)) (.cons (onceIfElse m e.exp)
    (semiIf e.trail r.exp))))), ?_, ?_⟩
  · rw [Srcs.compile, (parseBody_iff _ (.cons (.decl j) (.cons (onceIf m') (semiIf b' (.cons (.ifThen (.usr c) (.decl i))
      (.cons (onceIfElse m e.exp) (semiIf e.trail r.exp))))))).2]
    · simp [Ss.wf, S.wf, onceIf, onceIfElse, semiIf_wf, Cond.wf, Act.wf, Ss.one, r.exp_wf true true hr, h1, e.exp_wf true he, h1e]
    · constructor
      · simp [Ss.nice, S.nice, onceIf, onceIfElse, Ss.one, semiIf_nice, r.exp_nice hr, e.exp_nice he, S.opens]
      · simp only [Srcs.toks, Src.toks, r.exp_toks hr hmr, e.exp_toks he hme, Ss.toks, S.toks, onceIf, onceIfElse, Ss.one,
          semiIf_toks, Mac.toks, semiToks]
        simp
  · intro σ P st
    obtain ⟨st', e', hu⟩ := once_used P st j m'
    have hrun : (onceIf m').run P (some j) st = (none, st') := by
      rw [← e']
      cases h : st.used j <;> simp [onceIf, S.run, Ss.run, Ss.one, Cond.eval, Act.run, Mac.means, h]
    simp only [Ss.run, onceIf] at hrun ⊢
    simp only [hrun, e', semiIf_run]
    cases hc : P.cond c st'.u <;> simp [Ss.run, S.run, Cond.eval, hc, hu, semiIf_run, onceIfElse, e.exp_run P (some j) st' he, fun st => r.exp_run P (some j) st hr] <;> rfl

/-- With the condition true the warning should be written and `f` not called; it is the other way round. -/
example : let l := Srcs.of [.use (.once 0 "first") true, .ifElse 0 (.use (.once 1 "second") false) (.code 7)]
    ((l.means counting (St.init 1)).2.out, (l.means counting (St.init 1)).2.u) = (["first", "second"], 1) ∧
    (l.compile.map fun p => ((p.run counting none (St.init 1)).2.out, (p.run counting none (St.init 1)).2.u)) = some (["first"], 8) := by
  decide +kernel

/-! ## Macros that construct a variable after `if` -/

/-- C96 is false: after `if(c)` only the title of `HELPER_TEST_CONSTRUCT` depends on the condition; the variable is constructed and the result
written in any case. -/
theorem C96_construct_if_refuted (r : Srcs) (c a : Nat) (t q : String) (b : Bool) (hr : r.shape = true) (hm : r.semis = true)
    (h1 : r.single false = true) :
    ∃ p, (Srcs.cons (.ifThen c (.use (.construct a t q) b)) r).compile = some p ∧
      ∀ (σ : Type) (P : User σ) (st : St σ), p.run P none st =
        r.means P { st with u := P.act a st.u, out := st.out ++ (if P.cond c st.u then [t] else []) ++ [q] } := by
  refine ⟨.cons (.ifThen (.usr c) (.act (.emit t))) (.cons (.act (.usr a)) (.cons (.act (.emit q)) (semiIf b r.exp))), ?_, ?_⟩
  · rw [Srcs.compile, (parseBody_iff _ (.cons (.ifThen (.usr c) (.act (.emit t))) (.cons (.act (.usr a)) (.cons (.act (.emit q))
      (semiIf b r.exp))))).2]
    · simp [Ss.wf, S.wf, semiIf_wf, Cond.wf, Act.wf, r.exp_wf false false hr, h1]
    · constructor
      · simp [Ss.nice, S.nice, semiIf_nice, r.exp_nice hr]
      · simp only [Srcs.toks, Src.toks, r.exp_toks hr hm, Ss.toks, S.toks, semiIf_toks, Mac.toks, semiToks]
        simp
  · intro σ P st
    cases hc : P.cond c st.u <;> simp [Ss.run, S.run, Cond.eval, Act.run, hc, semiIf_run, fun st => r.exp_run P none st hr]

/-- C96 is false: likewise the block of `HELPER_TEST_DECLARE` depends on the condition, the declaration does not. -/
theorem C96_declare_if_refuted (r : Srcs) (c a : Nat) (t q : String) (b : Bool) (hr : r.shape = true) (hm : r.semis = true)
    (h1 : r.single false = true) :
    ∃ p, (Srcs.cons (.ifThen c (.use (.declare a t q) b)) r).compile = some p ∧
      ∀ (σ : Type) (P : User σ) (st : St σ), p.run P none st =
        if P.cond c st.u then r.means P { st with u := P.act a (P.act a st.u), out := st.out ++ [t, q] }
        else r.means P { st with u := P.act a st.u } := by
  refine ⟨.cons (.ifThen (.usr c) (.block (.cons (.act (.emit t)) (.cons (.act (.usr a)) (.one (.act (.emit q)))))))
    (.cons (.act (.usr a)) (semiIf b r.exp)), ?_, ?_⟩
  · rw [Srcs.compile, (parseBody_iff _ (.cons (.ifThen (.usr c) (.block (.cons (.act (.emit t)) (.cons (.act (.usr a)) (.one (.act (.emit q)))))))
      (.cons (.act (.usr a)) (semiIf b r.exp)))).2]
    · simp [Ss.wf, S.wf, semiIf_wf, Cond.wf, Act.wf, Ss.one, r.exp_wf false false hr, h1]
    · constructor
      · simp [Ss.nice, S.nice, semiIf_nice, Ss.one, r.exp_nice hr]
      · simp only [Srcs.toks, Src.toks, r.exp_toks hr hm, Ss.toks, S.toks, Ss.one, semiIf_toks, Mac.toks, semiToks]
        simp
  · intro σ P st
    cases hc : P.cond c st.u <;> simp [Ss.run, S.run, Cond.eval, Act.run, Ss.one, hc, semiIf_run, fun st => r.exp_run P none st hr]

/-- The condition is false, and yet the variable is constructed. -/
example : let l := Srcs.of [.ifThen 5 (.use (.construct 3 "t" "r") true)]
    ((l.means counting (St.init 0)).2.out, (l.means counting (St.init 0)).2.u) = ([], 0) ∧
    (l.compile.map fun p => ((p.run counting none (St.init 0)).2.out, (p.run counting none (St.init 0)).2.u)) = some (["r"], 3) := by
  decide +kernel

/-- C96 is false: with an `else` after it the macro does not compile, with or without semicolon. -/
theorem C96_construct_else_refuted (c a : Nat) (t q : String) (b : Bool) (e : Src) :
    (Srcs.of [.ifElse c (.use (.construct a t q) b) e]).compile = none ∧
    (Srcs.of [.ifElse c (.use (.declare a t q) b) e]).compile = none := by
  have key : ∀ (s : S) (x : Tok) (y : List Tok) (n : Nat), s.nice = true → s.opens = false → (∀ r, x :: y ≠ .else_ :: r) →
      (∀ k, k ≤ n → parseSs k (x :: y) = none) → parseSs n (.if_ (.usr c) :: (s.toks ++ x :: y)) = none := by
    intro s x y n hn ho hx hp
    cases n with
    | zero => rfl
    | succ n =>
      rw [parseSs_cons (by simp)]
      cases hq : parseS n (.if_ (.usr c) :: (s.toks ++ x :: y)) with
      | none => rfl
      | some z =>
        cases n with
        | zero => simp [parseS] at hq
        | succ n =>
          cases hs : parseS n (s.toks ++ x :: y) with
          | none => simp [parseS, hs] at hq
          | some w =>
            have hw := parseS_toks_any hn (fun h => by rw [ho] at h; cases h) n w hs
            rw [hw] at hs
            rw [parseS_if_open hs (fun r h => hx r h)] at hq
            cases hq
            simp only [hp (n + 1) (by omega)]
  have actNone : ∀ (w : Act) (y : List Tok), (∀ k, parseSs k y = none) → ∀ k, parseSs k (.act w :: y) = none := by
    intro w y hy k
    cases k with
    | zero => rfl
    | succ k =>
      rw [parseSs_cons (by simp)]
      cases k with
      | zero => rfl
      | succ k => simp only [parseS, hy]
  have elseNone : ∀ (y : List Tok) (k : Nat), parseSs k (.else_ :: y) = none := by
    intro y k
    cases k with
    | zero => rfl
    | succ k =>
      rw [parseSs_cons (by simp)]
      cases k <;> simp [parseS]
  have semiNone : ∀ (y : List Tok) (k : Nat), parseSs k (semiToks b ++ .else_ :: y) = none := by
    intro y k
    cases b with
    | false => exact elseNone y k
    | true =>
      simp only [semiToks, if_true, List.cons_append, List.nil_append]
      cases k with
      | zero => rfl
      | succ k =>
        rw [parseSs_cons (by simp)]
        cases k with
        | zero => rfl
        | succ k => simp only [parseS, elseNone]
  constructor
  · have h := key (.act (.emit t)) (.act (.usr a)) (.act (.emit q) :: (semiToks b ++ .else_ :: (e.toks ++ [.rb])))
      (2 * (Srcs.of [.ifElse c (.use (.construct a t q) b) e]).toks.length + 2) rfl rfl (by simp)
      (fun k _ => actNone _ _ (actNone _ _ (semiNone _)) k)
    rw [Srcs.compile, parseBody]
    have e1 : (Srcs.of [.ifElse c (.use (.construct a t q) b) e]).toks ++ [.rb] =
        .if_ (.usr c) :: ((S.act (.emit t)).toks ++ .act (.usr a) :: .act (.emit q) :: (semiToks b ++ .else_ :: (e.toks ++ [.rb]))) := by
      simp [Srcs.of, Srcs.toks, Src.toks, Mac.toks, S.toks, semiToks]
    rw [e1, h]
  · have h := key (.block (.cons (.act (.emit t)) (.cons (.act (.usr a)) (.one (.act (.emit q)))))) (.act (.usr a))
      (semiToks b ++ .else_ :: (e.toks ++ [.rb]))
      (2 * (Srcs.of [.ifElse c (.use (.declare a t q) b) e]).toks.length + 2) rfl rfl (by simp)
      (fun k _ => actNone _ _ (semiNone _) k)
    rw [Srcs.compile, parseBody]
    have e1 : (Srcs.of [.ifElse c (.use (.declare a t q) b) e]).toks ++ [.rb] =
        .if_ (.usr c) :: ((S.block (.cons (.act (.emit t)) (.cons (.act (.usr a)) (.one (.act (.emit q)))))).toks ++
          .act (.usr a) :: (semiToks b ++ .else_ :: (e.toks ++ [.rb]))) := by
      simp [Srcs.of, Srcs.toks, Src.toks, Mac.toks, S.toks, Ss.toks, Ss.one, semiToks]
    rw [e1, h]

/-! ## Many calls -/

/-- Calls of the function with other code in between. -/
def calls (f : St σ → Option String × St σ) : List (σ → σ) → St σ → St σ
  | [], st => st
  | g :: gs, st => calls f gs (f { st with u := g st.u }).2

/-- C96: over any history of calls. -/
theorem C96_calls_partial (l : Srcs) (hs : l.shape = true) (hm : l.semis = true) (h1 : l.single false = true) :
    ∃ b, l.compile = some b ∧ ∀ (σ : Type) (P : User σ) (gs : List (σ → σ)) (st : St σ),
      calls (b.run P none) gs st = calls (l.means P) gs st := by
  obtain ⟨b, hb, h⟩ := C96_meaning_partial l hs hm h1
  refine ⟨b, hb, fun σ P gs => ?_⟩
  have : b.run P none = l.means P := funext (h σ P)
  intro st
  rw [this]

example : (calls ((Srcs.of [.use (.once 0 "m") true]).means counting) [id, id, id] (St.init 0)).out = ["m"] := by decide +kernel

/-! ## Scopes -/

mutual
/-- Some use of `first_time` is not preceded by a declaration in this statement or an enclosing one. -/
def S.free : S → Bool
  | .act .clear => true
  | .act _ => false
  | .empty => false
  | .decl _ => false
  | .block l => l.free
  | .ifThen c t => c == .flag || t.free
  | .ifElse c t e => c == .flag || t.free || e.free
def Ss.free : Ss → Bool
  | .nil => false
  | .cons (.decl _) _ => false
  | .cons s l => s.free || l.free
end

/-- The number of declarations directly in a block. -/
def Ss.decls : Ss → Nat
  | .nil => 0
  | .cons (.decl _) l => l.decls + 1
  | .cons _ l => l.decls

mutual
/-- No block inside the statement declares `first_time` twice. -/
def S.once : S → Bool
  | .block l => decide (l.decls ≤ 1) && l.inner
  | .ifThen _ t => t.once
  | .ifElse _ t e => t.once && e.once
  | _ => true
/-- No block inside one of the statements does. -/
def Ss.inner : Ss → Bool
  | .nil => true
  | .cons s l => s.once && l.inner
end

mutual
theorem S.wf_free : ∀ (s : S) (vis : Bool), s.wf vis = true ↔ (s.free = true → vis = true) ∧ s.once = true
  | .empty, vis => by simp [S.wf, S.free, S.once]
  | .act a, vis => by cases a <;> simp [S.wf, Act.wf, S.free, S.once]
  | .decl _, vis => by simp [S.wf, S.free, S.once]
  | .block l, vis => by
    have := Ss.wf_free l vis false
    simp only [S.wf, S.free, S.once, this, Bool.and_eq_true, decide_eq_true_eq]
    constructor
    · rintro ⟨h1, h2, h3⟩; exact ⟨h1, by simpa using h2, h3⟩
    · rintro ⟨h1, h2, h3⟩; exact ⟨h1, by simpa using h2, h3⟩
  | .ifThen c t, vis => by
    have := S.wf_free t vis
    cases c <;> cases vis <;> simp_all [S.wf, Cond.wf, S.free, S.once]
  | .ifElse c t e, vis => by
    have h1 := S.wf_free t vis
    have h2 := S.wf_free e vis
    cases c <;> cases vis <;> cases ht : t.free <;> cases he : e.free <;> simp_all [S.wf, Cond.wf, S.free, S.once]
theorem Ss.wf_free : ∀ (l : Ss) (vis here : Bool), l.wf vis here = true ↔
    (l.free = true → vis = true) ∧ l.decls + (if here then 1 else 0) ≤ 1 ∧ l.inner = true
  | .nil, vis, here => by cases here <;> simp [Ss.wf, Ss.free, Ss.decls, Ss.inner]
  | .cons s l, vis, here => by
    by_cases hd : ∃ i, s = .decl i
    · obtain ⟨i, e⟩ := hd
      rw [e]
      have := Ss.wf_free l true true
      cases here <;> simp_all [Ss.wf, Ss.free, Ss.decls, Ss.inner, S.once]
    · have h1 := S.wf_free s vis
      have h2 := Ss.wf_free l vis here
      cases s <;> first
        | exact absurd ⟨_, rfl⟩ hd
        | (simp only [Ss.wf, Ss.free, Ss.decls, Ss.inner, Bool.and_eq_true, Bool.or_eq_true, h1, h2]
           grind)
end

/-- C96: a body compiles exactly if the text can be read, every use of the variable `first_time` comes after a declaration in the same
or an enclosing block, and no block declares it twice. -/
theorem C96_scopes (l : Srcs) (b : Ss) : l.compile = some b ↔
    parseBody l.toks = some b ∧ b.free = false ∧ b.decls ≤ 1 ∧ b.inner = true := by
  unfold Srcs.compile
  cases hp : parseBody l.toks with
  | none => simp
  | some b' =>
    have := Ss.wf_free b' false false
    simp only [Option.some.injEq]
    constructor
    · intro h
      split at h
      · rename_i hw
        cases h
        have := this.1 hw
        exact ⟨rfl, by simpa using this.1, by simpa using this.2.1, this.2.2⟩
      · cases h
    · rintro ⟨e, h1, h2, h3⟩
      rw [← e] at h1 h2 h3
      rw [if_pos (this.2 ⟨by simp [h1], by simpa using h2, h3⟩), e]

/-- The assignment to the variable outside the scope of its declaration does not compile. -/
example : (Ss.cons (.act .clear) .nil).wf false false = false := by
  have := Ss.wf_free (Ss.cons (.act .clear) .nil) false false
  simp [Ss.free, S.free] at this
  exact this

end Helper.Stmts
