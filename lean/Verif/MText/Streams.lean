import Verif.MText.Lemmas
/-!
# What a text writes into the stream
-/
set_option linter.unusedSectionVars false
namespace Helper.MText

variable {sem : Op → Int → Int → Int}

/-- A text that does not use the stream of the macro itself. -/
def Flat.Plain (f : Flat) : Prop := f.head ≠ .os ∧ ∀ p ∈ f.tail, p.2 ≠ .os ∧ p.1 ≠ .cond .os

instance (f : Flat) : Decidable f.Plain :=
  inferInstanceAs (Decidable (f.head ≠ .os ∧ ∀ p ∈ f.tail, p.2 ≠ .os ∧ p.1 ≠ .cond .os))

/-- The text compiles. -/
def Flat.Typed (f : Flat) : Prop := f.parse.ty.isSome = true

instance (f : Flat) : Decidable f.Typed := inferInstanceAs (Decidable (f.parse.ty.isSome = true))

/-- The value of an argument on its own. -/
def Flat.value (sem : Op → Int → Int → Int) (f : Flat) : Val := (f.parse.eval sem "").1

/-- A part of a message: a text with operators that bind tighter than `<<`. -/
structure Part (f : Flat) : Prop where
  plain : f.Plain
  typed : f.Typed
  tight : f.Min 11

theorem plain_glue {a b : Flat} {o : Op} : (a.glue o b).Plain ↔ a.Plain ∧ o ≠ .cond .os ∧ b.Plain := by
  simp only [Flat.Plain, Flat.glue_tail, List.mem_append, List.mem_cons]
  constructor
  · rintro ⟨h, h'⟩
    refine ⟨⟨h, fun p hp => h' p (.inl hp)⟩, (h' _ (.inr (.inl rfl))).2, (h' _ (.inr (.inl rfl))).1, fun p hp => h' p (.inr (.inr hp))⟩
  · rintro ⟨⟨h1, h2⟩, h3, h4, h5⟩
    refine ⟨h1, ?_⟩
    rintro p (hp | rfl | hp)
    · exact h2 p hp
    · exact ⟨h4, h3⟩
    · exact h5 p hp

theorem plain_one {v : Val} : (Flat.one v).Plain ↔ v ≠ .os := by simp [Flat.Plain, Flat.one]

/-- Evaluating a plain text writes nothing. -/
theorem plain_eval (t : Tree) (h : t.flat.Plain) : ∃ v, v ≠ .os ∧ ∀ b, t.eval sem b = (v, b) := by
  induction t with
  | leaf v => exact ⟨v, plain_one.1 h, fun _ => rfl⟩
  | node o l r ihl ihr =>
    obtain ⟨hl, ho, hr⟩ := plain_glue.1 h
    obtain ⟨x, hx, el⟩ := ihl hl
    obtain ⟨y, hy, er⟩ := ihr hr
    cases o with
    | shl =>
      cases x with
      | os => exact absurd rfl hx
      | num n => exact ⟨.num (sem .shl n y.int), by simp, fun b => by simp [Tree.eval, el, er, Val.int]⟩
      | str n => exact ⟨.num (sem .shl 0 y.int), by simp, fun b => by simp [Tree.eval, el, er, Val.int]⟩
    | land =>
      cases hx' : x.truth with
      | true => exact ⟨ofBool y.truth, by simp [ofBool], fun b => by simp [Tree.eval, el, er, hx']⟩
      | false => exact ⟨ofBool false, by simp [ofBool], fun b => by simp [Tree.eval, el, hx']⟩
    | lor =>
      cases hx' : x.truth with
      | true => exact ⟨ofBool true, by simp [ofBool], fun b => by simp [Tree.eval, el, hx']⟩
      | false => exact ⟨ofBool y.truth, by simp [ofBool], fun b => by simp [Tree.eval, el, er, hx']⟩
    | cond m =>
      cases hx' : x.truth with
      | true => exact ⟨m, fun hm => ho (by rw [hm]), fun b => by simp [Tree.eval, el, hx']⟩
      | false => exact ⟨y, hy, fun b => by simp [Tree.eval, el, er, hx']⟩
    | _ => exact ⟨_, fun h => Val.noConfusion h, fun b => by simp only [Tree.eval, el, er]; rfl⟩

theorem plain_ty (t : Tree) (h : t.flat.Plain) : t.ty ≠ some .os := by
  induction t with
  | leaf v => cases v <;> simp [Tree.ty, Val.ty]; exact absurd rfl (plain_one.1 h)
  | node o l r ihl ihr =>
    obtain ⟨hl, ho, hr⟩ := plain_glue.1 h
    have ihl := ihl hl
    have ihr := ihr hr
    simp only [Tree.ty]
    cases hl' : l.ty with
    | none => simp
    | some a =>
      cases hr' : r.ty with
      | none => simp
      | some b =>
        simp only
        rw [hl'] at ihl
        rw [hr'] at ihr
        cases a <;> cases b <;> first | exact absurd rfl ihl | exact absurd rfl ihr | (cases o <;> simp [Op.ty]) <;> (try split) <;> simp

/-- A text that writes `out` into the stream and gives the stream. -/
structure Streams (sem : Op → Int → Int → Int) (f : Flat) (out : String) : Prop where
  min : f.Min 10
  ty : f.parse.ty = some .os
  eval : ∀ b, f.parse.eval sem b = (.os, b ++ out)

theorem Streams.os : Streams sem (.one .os) "" :=
  ⟨Flat.min_one _ _, rfl, fun b => by simp [Flat.parse, Flat.one, Tree.eval]⟩

theorem value_eval {f : Flat} (h : f.Plain) (b : String) : f.parse.eval sem b = (f.value sem, b) := by
  obtain ⟨v, _, e⟩ := plain_eval (sem := sem) f.parse (by rw [parse_flat]; exact h)
  rw [Flat.value, e, e]

theorem plain_parse_ty {f : Flat} (h : f.Plain) : f.parse.ty ≠ some .os := plain_ty _ (by rw [parse_flat]; exact h)

/-- The type of a plain text that compiles. -/
theorem Flat.Typed.cases {f : Flat} (ht : f.Typed) (h : f.Plain) : f.parse.ty = some .num ∨ f.parse.ty = some .str := by
  have := plain_parse_ty h
  simp only [Flat.Typed] at ht
  cases e : f.parse.ty with
  | none => rw [e] at ht; cases ht
  | some a => cases a <;> simp_all

theorem Streams.part {f p : Flat} {out : String} (hf : Streams sem f out) (hp : Part p) :
    Streams sem (f <<' p) (out ++ (p.value sem).text) := by
  have e : (f <<' p).parse = .node .shl f.parse p.parse := parse_glue rfl hf.min hp.tight
  refine ⟨Flat.min_glue.2 ⟨hf.min, by decide, hp.tight.mono (by omega)⟩, ?_, fun b => ?_⟩
  · rw [e, Tree.ty, hf.ty]
    rcases hp.typed.cases hp.plain with h | h <;> rw [h] <;> rfl
  · rw [e]
    simp only [Tree.eval, hf.eval, value_eval hp.plain, String.append_assoc]

theorem Part.val {v : Val} (h : v ≠ .os) : Part (.one v) := ⟨plain_one.2 h, rfl, Flat.min_one _ _⟩

theorem Streams.str {f : Flat} {out : String} (hf : Streams sem f out) (s : String) :
    Streams sem (f <<' Flat.one (.str s)) (out ++ s) := hf.part (Part.val (by simp))

theorem Streams.num {f : Flat} {out : String} (hf : Streams sem f out) (n : Int) :
    Streams sem (f <<' Flat.one (.num n)) (out ++ toString n) := hf.part (Part.val (by simp))

theorem Streams.written {f : Flat} {out : String} (hf : Streams sem f out) : written sem f = some out := by
  rw [MText.written, hf.ty, hf.eval]
  simp

/-- `p << p1 << ... << pn` -/
def chain (p : Flat) (ps : List Flat) : Flat := ps.foldl (fun a b => a <<' b) p

theorem glue_chain (f p : Flat) (ps : List Flat) : f.glue .shl (chain p ps) = chain (f.glue .shl p) ps := by
  induction ps generalizing p with
  | nil => rfl
  | cons q ps ih =>
    rw [chain, List.foldl_cons, ← chain, ih, chain, chain, List.foldl_cons, Flat.glue_assoc]

theorem Streams.chain {ps : List Flat} (hps : ∀ q ∈ ps, Part q) : ∀ {f : Flat} {out : String} (_ : Streams sem f out),
    Streams sem (chain f ps) (out ++ String.join (ps.map fun q => (q.value sem).text)) := by
  induction ps with
  | nil => intro f out hf; simpa [MText.chain, String.join] using hf
  | cons q ps ih =>
    intro f out hf
    have h := ih (fun x hx => hps x (List.mem_cons_of_mem _ hx)) (hf.part (hps q List.mem_cons_self))
    have e : MText.chain f (q :: ps) = MText.chain (f <<' q) ps := rfl
    rw [e]
    have e' : String.join ((q :: ps).map fun q => (q.value sem).text) =
        (q.value sem).text ++ String.join (ps.map fun q => (q.value sem).text) := by
      simp only [List.map_cons, String.join_cons]
    rw [e', ← String.append_assoc]
    exact h

/-! ## Operators that bind weaker than `<<` -/

/-- The operators that take a stream as a condition. -/
def Op.tests : Op → Bool
  | .land | .lor | .cond _ => true
  | _ => false

theorem attach_node {p l r : Tree} {o : Op} (ho : o.prec < 10) : attach p (.node o l r) = .node o (attach p l) r := by
  have : ¬ Op.shl.prec < o.prec := by simp only [show Op.shl.prec = 10 from rfl]; omega
  simp [attach, this]

theorem parse_glue' {o : Op} {a b : Flat} (ha : a.Min (if o.right then o.prec + 1 else o.prec))
    (hb : b.Min (if o.right then o.prec else o.prec + 1)) : (a.glue o b).parse = .node o a.parse b.parse := by
  have h : Gram 0 (.node o a.parse b.parse) := by
    cases ho : o.right with
    | false => rw [ho] at ha hb; exact .left ho (Nat.zero_le _) (parse_gram ha) (parse_gram hb)
    | true => rw [ho] at ha hb; exact .right ho (Nat.zero_le _) (parse_gram ha) (parse_gram hb)
  have := parse_of_gram h
  rwa [Tree.flat, parse_flat, parse_flat] at this

/-- After `<<`, the left operand of a weaker operator goes into the stream and the operator is applied to the stream. -/
theorem parse_after {f l r : Flat} {o : Op} (hf : f.Min 10) (ho : o.prec < 10)
    (hl : l.Min (if o.right then o.prec + 1 else o.prec)) (hr : r.Min (if o.right then o.prec else o.prec + 1)) :
    (f <<' (l.glue o r)).parse = .node o (f <<' l).parse r.parse := by
  show (f.glue .shl (l.glue o r)).parse = .node o (f.glue .shl l).parse r.parse
  rw [parse_attach hf, parse_glue' hl hr, attach_node ho, parse_attach hf]

/-- A text without `&&`, `||` and conditionals outside parentheses after `<<` gives the stream, if it compiles. -/
theorem attach_ty {p t : Tree} (hp : p.ty = some .os) (ht : t.flat.Plain) (h4 : t.flat.Min 4) :
    (attach p t).ty = none ∨ (attach p t).ty = some .os := by
  induction t with
  | leaf v =>
    right
    rw [attach, Tree.ty, hp, Tree.ty]
    have := plain_one.1 ht
    cases v <;> first | exact absurd rfl this | rfl
  | node o l r ihl _ =>
    obtain ⟨hl, ho', hr⟩ := plain_glue.1 ht
    obtain ⟨ml, mo, mr⟩ := Flat.min_glue.1 h4
    rw [attach]
    split
    · rw [Tree.ty, hp]
      have h := plain_ty _ ht
      cases e : (Tree.node o l r).ty with
      | none => exact .inl rfl
      | some a => cases a <;> first | exact absurd e h | exact .inr rfl
    · rename_i h10
      rw [Tree.ty]
      have h := plain_ty _ hr
      rcases ihl hl ml with e | e <;> rw [e]
      · exact .inl rfl
      · cases e' : r.ty with
        | none => exact .inl rfl
        | some b =>
          rw [e'] at h
          cases b with
          | os => exact absurd rfl h
          | num => cases o <;> simp [Op.prec] at h10 mo <;> simp [Op.ty]
          | str => cases o <;> simp [Op.prec] at h10 mo <;> simp [Op.ty]

theorem written_ty (f : Flat) : written sem f = none ↔ f.parse.ty = none := by
  simp [written]

/-- A text with a comparison or a bitwise operator after `<<` does not compile. -/
theorem after_illFormed {f l r : Flat} {o : Op} {out : String} (hf : Streams sem f out) (ho : o.prec < 10) (ht : o.tests = false)
    (hl : l.Min o.prec) (hr : r.Min (o.prec + 1)) (hp : l.Plain) : written sem (f <<' (l.glue o r)) = none := by
  have h4 : 4 ≤ o.prec := by cases o <;> simp [Op.tests] at ht <;> simp [Op.prec]
  have hr' : o.right = false := by cases o <;> simp [Op.tests] at ht <;> rfl
  rw [written_ty, parse_after hf.min ho (by rw [hr']; exact hl) (by rw [hr']; exact hr), Tree.ty, parse_attach hf.min]
  rcases attach_ty hf.ty (by rw [parse_flat]; exact hp) (by rw [parse_flat]; exact hl.mono h4) with e | e <;> rw [e]
  cases r.parse.ty with
  | none => rfl
  | some b =>
    cases o with
    | land => cases ht
    | lor => cases ht
    | cond => cases ht
    | mul => simp [Op.prec] at ho
    | div => simp [Op.prec] at ho
    | mod => simp [Op.prec] at ho
    | add => simp [Op.prec] at ho
    | sub => simp [Op.prec] at ho
    | shl => simp [Op.prec] at ho
    | shr => simp [Op.prec] at ho
    | _ => cases b <;> rfl

/-- The operator can be applied to a right operand of this text: the two results of a conditional must have the same type. -/
def Op.takes (o : Op) (r : Flat) : Prop := ∀ m, o = .cond m → r.parse.ty = some m.ty

/-- After `<<`, of a text `l && r`, `l || r`, `l ? m : r` only `l` is written. -/
theorem after_tests {f l r : Flat} {o : Op} {out : String} (hf : Streams sem f out) (ht : o.tests = true)
    (hl : l.Min (if o.right then o.prec + 1 else o.prec)) (hr : r.Min (if o.right then o.prec else o.prec + 1))
    (hp : r.Plain) (hy : r.Typed) (hm : o.takes r) :
    written sem (f <<' (l.glue o r)) = written sem (f <<' l) := by
  have ho : o.prec < 10 := by cases o <;> simp [Op.tests] at ht <;> simp [Op.prec]
  rw [written, written, parse_after hf.min ho hl hr]
  obtain ⟨b, hb⟩ := Option.isSome_iff_exists.1 hy
  have hty : (Tree.node o (f <<' l).parse r.parse).ty.isSome = (f <<' l).parse.ty.isSome := by
    rw [Tree.ty, hb]
    cases (f <<' l).parse.ty with
    | none => rfl
    | some a =>
      cases o with
      | land => cases a <;> cases b <;> rfl
      | lor => cases a <;> cases b <;> rfl
      | cond m =>
        have := hm m rfl
        rw [hb] at this
        simp only [Option.some.injEq] at this
        simp [Op.ty, this]
      | _ => cases ht
  rw [hty]
  have hev : ((Tree.node o (f <<' l).parse r.parse).eval sem "").2 = ((f <<' l).parse.eval sem "").2 := by
    cases o with
    | land => simp only [Tree.eval, value_eval hp]; split <;> rfl
    | lor => simp only [Tree.eval, value_eval hp]; split <;> rfl
    | cond m => simp only [Tree.eval, value_eval hp]; split <;> rfl
    | _ => cases ht
  rw [hev]

/-! ## Texts with something written after them -/

/-- The parts of a text between operators weaker than `<<`. -/
def blocks : Val → List (Op × Val) → List Flat
  | v, [] => [⟨v, []⟩]
  | v, (o, a) :: l =>
    if o.prec < 10 then ⟨v, []⟩ :: blocks a l
    else match blocks a l with
      | b :: bs => (Flat.one v).glue o b :: bs
      | [] => []

def Flat.blocks (f : Flat) : List Flat := MText.blocks f.head f.tail

theorem blocks_ne (v : Val) (l : List (Op × Val)) : blocks v l ≠ [] := by
  induction l generalizing v with
  | nil => simp [blocks]
  | cons p l ih =>
    obtain ⟨o, a⟩ := p
    rw [blocks]
    split
    · simp
    · have := ih a
      cases h : blocks a l with
      | nil => exact absurd h this
      | cons b bs => simp

/-- A weak operator separates blocks. -/
theorem blocks_weak {o : Op} (ho : o.prec < 10) (a b : Flat) : (a.glue o b).blocks = a.blocks ++ b.blocks := by
  obtain ⟨v, l⟩ := a
  simp only [Flat.blocks, Flat.glue]
  induction l generalizing v with
  | nil => simp [blocks, ho]
  | cons p l ih =>
    obtain ⟨q, c⟩ := p
    simp only [List.cons_append, blocks]
    split
    · rw [ih]; rfl
    · rw [ih]
      cases h : blocks c l with
      | nil => exact absurd h (blocks_ne _ _)
      | cons x xs => rfl

/-- A strong operator joins the last block of its left side and the first one of its right side. -/
theorem blocks_strong {o : Op} (ho : ¬ o.prec < 10) (a b : Flat) :
    ∃ as x y bs, a.blocks = as ++ [x] ∧ b.blocks = y :: bs ∧ (a.glue o b).blocks = as ++ x.glue o y :: bs := by
  obtain ⟨v, l⟩ := a
  cases hb : b.blocks with
  | nil => exact absurd hb (blocks_ne _ _)
  | cons y bs =>
    simp only [Flat.blocks, Flat.glue] at *
    induction l generalizing v with
    | nil => exact ⟨[], ⟨v, []⟩, y, bs, by simp [blocks], rfl, by simp [blocks, ho, hb, Flat.one, Flat.glue]⟩
    | cons p l ih =>
      obtain ⟨q, c⟩ := p
      obtain ⟨as, x, y', bs', e1, e2, e3⟩ := ih c
      simp only [List.cons.injEq] at e2
      obtain ⟨e2, e2'⟩ := e2
      rw [← e2, ← e2'] at e3
      simp only [List.cons_append, blocks]
      rw [e3, e1]
      split
      · exact ⟨⟨v, []⟩ :: as, x, y, bs, rfl, rfl, rfl⟩
      · cases as with
        | nil => exact ⟨[], (Flat.one v).glue q x, y, bs, rfl, rfl, by simp [Flat.glue, Flat.one]⟩
        | cons z zs => exact ⟨(Flat.one v).glue q z :: zs, x, y, bs, rfl, rfl, rfl⟩

theorem blocks_min {f : Flat} (h : f.Min 10) : f.blocks = [f] := by
  obtain ⟨v, l⟩ := f
  simp only [Flat.blocks]
  induction l generalizing v with
  | nil => rfl
  | cons p l ih =>
    obtain ⟨o, a⟩ := p
    have h1 : 10 ≤ o.prec := h (o, a) List.mem_cons_self
    rw [blocks, if_neg (by omega), ih a (fun q hq => h q (List.mem_cons_of_mem _ hq))]
    simp [Flat.one, Flat.glue]

/-- If a text compiles then so do its blocks. -/
theorem blocks_typed {t : Tree} {k : Nat} (hg : Gram k t) (h : t.ty.isSome = true) : ∀ b ∈ t.flat.blocks, b.Typed := by
  induction hg with
  | leaf k v =>
    intro b hb
    have hb : b ∈ (Flat.one v).blocks := hb
    rw [blocks_min (Flat.min_one _ _), List.mem_singleton] at hb
    rw [hb]; rfl
  | @left k o l r ho hk hl hr ihl ihr =>
    have : l.ty.isSome = true ∧ r.ty.isSome = true := by
      rw [Tree.ty] at h
      cases hl' : l.ty <;> cases hr' : r.ty <;> rw [hl', hr'] at h <;> simp at h ⊢
    intro b hb
    by_cases h10 : o.prec < 10
    · rw [Tree.flat, blocks_weak h10, List.mem_append] at hb
      exact hb.elim (ihl this.1 b) (ihr this.2 b)
    · have hm : (Tree.node o l r).flat.Min 10 :=
        Flat.min_glue.2 ⟨hl.min.mono (by omega), by omega, hr.min.mono (by omega)⟩
      rw [blocks_min hm, List.mem_singleton] at hb
      rw [hb, Flat.Typed, parse_of_gram (k := 0) (.left ho (Nat.zero_le _) hl hr)]
      exact h
  | @right k o l r ho hk hl hr ihl ihr =>
    have : l.ty.isSome = true ∧ r.ty.isSome = true := by
      rw [Tree.ty] at h
      cases hl' : l.ty <;> cases hr' : r.ty <;> rw [hl', hr'] at h <;> simp at h ⊢
    intro b hb
    have h10 : o.prec < 10 := by rw [right_prec.1 ho]; omega
    rw [Tree.flat, blocks_weak h10, List.mem_append] at hb
    exact hb.elim (ihl this.1 b) (ihr this.2 b)

theorem blocks_all_min (v : Val) (l : List (Op × Val)) : ∀ b ∈ blocks v l, b.Min 10 := by
  induction l generalizing v with
  | nil => intro b hb; simp only [blocks, List.mem_singleton] at hb; rw [hb]; exact Flat.min_one _ v
  | cons p l ih =>
    obtain ⟨o, a⟩ := p
    rw [blocks]
    split
    · intro b hb
      rcases List.mem_cons.1 hb with rfl | hb
      · exact Flat.min_one _ v
      · exact ih a b hb
    · rename_i h10
      have := ih a
      cases h : blocks a l with
      | nil => exact absurd h (blocks_ne _ _)
      | cons x xs =>
        rw [h] at this
        intro b hb
        rcases List.mem_cons.1 hb with rfl | hb
        · exact Flat.min_glue.2 ⟨Flat.min_one _ _, by omega, this x List.mem_cons_self⟩
        · exact this b (List.mem_cons_of_mem _ hb)

theorem blocks_plain {f : Flat} (h : f.Plain) : ∀ b ∈ f.blocks, b.Plain := by
  obtain ⟨v, l⟩ := f
  simp only [Flat.blocks]
  induction l generalizing v with
  | nil => intro b hb; simp only [blocks, List.mem_singleton] at hb; rw [hb]; exact h
  | cons p l ih =>
    obtain ⟨o, a⟩ := p
    have hg : Flat.Plain ((Flat.one v).glue o ⟨a, l⟩) := h
    obtain ⟨h1, h2, h3⟩ := plain_glue.1 hg
    rw [blocks]
    split
    · intro b hb
      rcases List.mem_cons.1 hb with rfl | hb
      · exact h1
      · exact ih a h3 b hb
    · have := ih a h3
      cases h : blocks a l with
      | nil => exact absurd h (blocks_ne _ _)
      | cons x xs =>
        rw [h] at this
        intro b hb
        rcases List.mem_cons.1 hb with rfl | hb
        · exact plain_glue.2 ⟨h1, h2, this x List.mem_cons_self⟩
        · exact this b (List.mem_cons_of_mem _ hb)

theorem blocks_head (v : Val) (l : List (Op × Val)) : ∃ b bs, blocks v l = b :: bs ∧ b.head = v := by
  cases l with
  | nil => exact ⟨_, _, rfl, rfl⟩
  | cons p l =>
    obtain ⟨o, a⟩ := p
    rw [blocks]
    split
    · exact ⟨_, _, rfl, rfl⟩
    · cases h : blocks a l with
      | nil => exact absurd h (blocks_ne _ _)
      | cons x xs => exact ⟨_, _, rfl, rfl⟩

/-- The first operand of a tree is a string. -/
theorem str_tight {t : Tree} {s : String} (h : t.flat.head = .str s) (hg : t.flat.Min 11) (hs : t ≠ .leaf (.str s)) : t.ty = none := by
  induction t with
  | leaf v => exact absurd (by simpa [Tree.flat, Flat.one] using h) (by simpa using hs)
  | node o l r ihl _ =>
    obtain ⟨ml, mo, mr⟩ := Flat.min_glue.1 hg
    have hl : l.flat.head = .str s := h
    have hty : l.ty = none ∨ l.ty = some .str := by
      by_cases e : l = .leaf (.str s)
      · right; rw [e]; rfl
      · exact .inl (ihl hl ml e)
    rw [Tree.ty]
    rcases hty with e | e <;> rw [e]
    cases r.ty with
    | none => rfl
    | some b => cases o <;> simp [Op.prec] at mo <;> cases b <;> rfl

/-- Shifting something other than the stream by a string does not compile. -/
theorem attach_str {p t : Tree} {s : String} {k : Nat} (hp : p.ty ≠ some .os) (h : t.flat.head = .str s) (hg : Gram k t) (hk : 10 ≤ k) :
    (attach p t).ty = none := by
  induction hg with
  | leaf k v =>
    have hv : v = .str s := h
    rw [hv, attach, Tree.ty]
    cases hp' : p.ty with
    | none => rfl
    | some a => cases a <;> first | exact absurd hp' hp | rfl
  | @left k o l r ho hk' hl hr ihl _ =>
    rw [attach]
    split
    · rename_i h10
      have h10 : 10 < o.prec := h10
      have hn : (Tree.node o l r).ty = none :=
        str_tight h (Flat.min_glue.2 ⟨hl.min.mono (by omega), by omega, hr.min.mono (by omega)⟩) (by simp)
      rw [Tree.ty, hn]
      cases p.ty <;> rfl
    · rw [Tree.ty, ihl h (by omega)]
  | right ho hk' hl hr => rw [right_prec.1 ho] at hk'; omega

theorem blocks_weak_tail {f : Flat} (h : ¬ f.Min 10) : ∃ b bs, f.blocks = b :: bs ∧ bs ≠ [] := by
  obtain ⟨v, l⟩ := f
  simp only [Flat.blocks]
  induction l generalizing v with
  | nil => exact absurd (Flat.min_one _ v) h
  | cons p l ih =>
    obtain ⟨o, a⟩ := p
    rw [blocks]
    split
    · exact ⟨_, _, rfl, blocks_ne _ _⟩
    · rename_i h10
      obtain ⟨b, bs, e, hb⟩ := ih a (fun hm => h (by
        intro q hq
        rcases List.mem_cons.1 hq with rfl | hq
        · simp only; omega
        · exact hm q hq))
      rw [e]
      exact ⟨_, _, rfl, hb⟩

/-- A text with an operator weaker than `<<` that stands between `<<` and `<< "..."` does not compile. -/
theorem between_illFormed (f e g : Flat) (s : String) (he : e.Plain) (hw : ¬ e.Min 10) (hg : g.head = .str s) :
    written sem (f <<' e <<' g) = none := by
  cases hty : written sem (f <<' e <<' g) with
  | none => rfl
  | some out =>
    exfalso
    have ht : (f <<' e <<' g).parse.ty.isSome = true := by
      rw [written] at hty
      split at hty
      · assumption
      · cases hty
    have hall := blocks_typed (parse_gram_zero _) ht
    rw [parse_flat] at hall
    obtain ⟨b, bs, eb, hbs⟩ := blocks_weak_tail hw
    obtain ⟨as, x, y, cs, e1, e2, e3⟩ := blocks_strong (o := .shl) (by decide) f e
    rw [eb] at e2
    obtain ⟨rfl, rfl⟩ := List.cons.inj e2
    obtain ⟨as', x', y', cs', e4, e5, e6⟩ := blocks_strong (o := .shl) (by decide) (f <<' e) g
    have hx' : x' ∈ bs := by
      rw [e3] at e4
      rw [← List.dropLast_concat_getLast hbs, ← List.cons_append, ← List.append_assoc] at e4
      have := List.append_inj_right' e4 rfl
      rw [← List.singleton_inj.1 this]
      exact List.getLast_mem hbs
    have hpx : x'.Plain := blocks_plain he x' (by rw [eb]; exact List.mem_cons_of_mem _ hx')
    have hmx : x'.Min 10 := blocks_all_min e.head e.tail x' (by
      show x' ∈ e.blocks
      rw [eb]; exact List.mem_cons_of_mem _ hx')
    have hy : y'.head = .str s := by
      obtain ⟨b', bs', e7, h7⟩ := blocks_head g.head g.tail
      have : g.blocks = b' :: bs' := e7
      rw [this] at e5
      obtain ⟨rfl, _⟩ := List.cons.inj e5
      rw [h7, hg]
    have hmy : y'.Min 10 := blocks_all_min g.head g.tail y' (by
      show y' ∈ g.blocks
      rw [e5]; exact List.mem_cons_self)
    have := hall (x'.glue .shl y') (by rw [e6]; simp)
    rw [Flat.Typed, parse_attach hmx, attach_str (plain_parse_ty hpx) (by rw [parse_flat]; exact hy) (parse_gram hmy) (Nat.le_refl _)] at this
    cases this

end Helper.MText
