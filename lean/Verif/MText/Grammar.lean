import Verif.MText.Props
/-!
# The productions of the C++ grammar (C93), and more on messages with weak operators (C92)
-/
set_option linter.unusedSectionVars false
namespace Helper.MText

variable {sem : Op → Int → Int → Int}

/-- The nonterminals of [expr.mptr.oper] to [expr.cond]. -/
inductive NT where
  | pm | multiplicative | additive | shift | compare | relational | equality | and_ | exclusiveOr | inclusiveOr
  | logicalAnd | logicalOr | conditional
deriving DecidableEq, Repr

/-- The productions as in the standard, one constructor for each alternative. Operands are pm-expressions. -/
inductive Derives : NT → Tree → Prop where
  | operand (v : Val) : Derives .pm (.leaf v)
  | mul0 {t} : Derives .pm t → Derives .multiplicative t
  | mul1 {l r} : Derives .multiplicative l → Derives .pm r → Derives .multiplicative (.node .mul l r)
  | mul2 {l r} : Derives .multiplicative l → Derives .pm r → Derives .multiplicative (.node .div l r)
  | mul3 {l r} : Derives .multiplicative l → Derives .pm r → Derives .multiplicative (.node .mod l r)
  | add0 {t} : Derives .multiplicative t → Derives .additive t
  | add1 {l r} : Derives .additive l → Derives .multiplicative r → Derives .additive (.node .add l r)
  | add2 {l r} : Derives .additive l → Derives .multiplicative r → Derives .additive (.node .sub l r)
  | shift0 {t} : Derives .additive t → Derives .shift t
  | shift1 {l r} : Derives .shift l → Derives .additive r → Derives .shift (.node .shl l r)
  | shift2 {l r} : Derives .shift l → Derives .additive r → Derives .shift (.node .shr l r)
  | compare0 {t} : Derives .shift t → Derives .compare t
  | compare1 {l r} : Derives .compare l → Derives .shift r → Derives .compare (.node .cmp3 l r)
  | rel0 {t} : Derives .compare t → Derives .relational t
  | rel1 {l r} : Derives .relational l → Derives .compare r → Derives .relational (.node .lt l r)
  | rel2 {l r} : Derives .relational l → Derives .compare r → Derives .relational (.node .gt l r)
  | rel3 {l r} : Derives .relational l → Derives .compare r → Derives .relational (.node .le l r)
  | rel4 {l r} : Derives .relational l → Derives .compare r → Derives .relational (.node .ge l r)
  | eq0 {t} : Derives .relational t → Derives .equality t
  | eq1 {l r} : Derives .equality l → Derives .relational r → Derives .equality (.node .eq l r)
  | eq2 {l r} : Derives .equality l → Derives .relational r → Derives .equality (.node .ne l r)
  | and0 {t} : Derives .equality t → Derives .and_ t
  | and1 {l r} : Derives .and_ l → Derives .equality r → Derives .and_ (.node .band l r)
  | xor0 {t} : Derives .and_ t → Derives .exclusiveOr t
  | xor1 {l r} : Derives .exclusiveOr l → Derives .and_ r → Derives .exclusiveOr (.node .bxor l r)
  | or0 {t} : Derives .exclusiveOr t → Derives .inclusiveOr t
  | or1 {l r} : Derives .inclusiveOr l → Derives .exclusiveOr r → Derives .inclusiveOr (.node .bor l r)
  | land0 {t} : Derives .inclusiveOr t → Derives .logicalAnd t
  | land1 {l r} : Derives .logicalAnd l → Derives .inclusiveOr r → Derives .logicalAnd (.node .land l r)
  | lor0 {t} : Derives .logicalAnd t → Derives .logicalOr t
  | lor1 {l r} : Derives .logicalOr l → Derives .logicalAnd r → Derives .logicalOr (.node .lor l r)
  | cond0 {t} : Derives .logicalOr t → Derives .conditional t
  | cond1 {l r m} : Derives .logicalOr l → Derives .conditional r → Derives .conditional (.node (.cond m) l r)

/-- The level of a nonterminal. -/
def NT.level : NT → Nat
  | .conditional => 1 | .logicalOr => 2 | .logicalAnd => 3 | .inclusiveOr => 4 | .exclusiveOr => 5 | .and_ => 6
  | .equality => 7 | .relational => 8 | .compare => 9 | .shift => 10 | .additive => 11 | .multiplicative => 12 | .pm => 13

theorem Derives.gram {n : NT} {t : Tree} (h : Derives n t) : Gram n.level t := by
  induction h with
  | operand v => exact .leaf _ v
  | mul0 _ ih | add0 _ ih | shift0 _ ih | compare0 _ ih | rel0 _ ih | eq0 _ ih | and0 _ ih | xor0 _ ih | or0 _ ih | land0 _ ih
  | lor0 _ ih | cond0 _ ih => exact ih.mono (by decide)
  | cond1 _ _ ihl ihr => exact .right rfl (Nat.le_refl _) ihl ihr
  | mul1 _ _ ihl ihr | mul2 _ _ ihl ihr | mul3 _ _ ihl ihr | add1 _ _ ihl ihr | add2 _ _ ihl ihr | shift1 _ _ ihl ihr
  | shift2 _ _ ihl ihr | compare1 _ _ ihl ihr | rel1 _ _ ihl ihr | rel2 _ _ ihl ihr | rel3 _ _ ihl ihr | rel4 _ _ ihl ihr
  | eq1 _ _ ihl ihr | eq2 _ _ ihl ihr | and1 _ _ ihl ihr | xor1 _ _ ihl ihr | or1 _ _ ihl ihr | land1 _ _ ihl ihr
  | lor1 _ _ ihl ihr => exact .left rfl (Nat.le_refl _) ihl ihr

theorem Derives.weaken {t : Tree} : ∀ {n m : NT}, m.level ≤ n.level → Derives n t → Derives m t := by
  have c1 : Derives .logicalOr t → Derives .conditional t := .cond0
  have c2 : Derives .logicalAnd t → Derives .logicalOr t := .lor0
  have c3 : Derives .inclusiveOr t → Derives .logicalAnd t := .land0
  have c4 : Derives .exclusiveOr t → Derives .inclusiveOr t := .or0
  have c5 : Derives .and_ t → Derives .exclusiveOr t := .xor0
  have c6 : Derives .equality t → Derives .and_ t := .and0
  have c7 : Derives .relational t → Derives .equality t := .eq0
  have c8 : Derives .compare t → Derives .relational t := .rel0
  have c9 : Derives .shift t → Derives .compare t := .compare0
  have c10 : Derives .additive t → Derives .shift t := .shift0
  have c11 : Derives .multiplicative t → Derives .additive t := .add0
  have c12 : Derives .pm t → Derives .multiplicative t := .mul0
  intro n m h d
  cases n <;> cases m <;> simp [NT.level] at h <;> simp_all

theorem one_le_prec (o : Op) : 1 ≤ o.prec := by cases o <;> simp [Op.prec]

/-- What is derivable by the productions is what the levels allow. -/
theorem derives_of_gram {k : Nat} {t : Tree} (h : Gram k t) : ∀ n : NT, n.level ≤ k → Derives n t := by
  induction h with
  | leaf k v => intro n _; exact (Derives.operand v).weaken (by cases n <;> decide)
  | @left k o l r ho hk hl hr ihl ihr =>
    intro n hn
    have hn : n.level ≤ o.prec := Nat.le_trans hn hk
    cases o with
    | mul => exact (Derives.mul1 (ihl _ (by decide)) (ihr _ (by decide))).weaken (by exact hn)
    | div => exact (Derives.mul2 (ihl _ (by decide)) (ihr _ (by decide))).weaken (by exact hn)
    | mod => exact (Derives.mul3 (ihl _ (by decide)) (ihr _ (by decide))).weaken (by exact hn)
    | add => exact (Derives.add1 (ihl _ (by decide)) (ihr _ (by decide))).weaken (by exact hn)
    | sub => exact (Derives.add2 (ihl _ (by decide)) (ihr _ (by decide))).weaken (by exact hn)
    | shl => exact (Derives.shift1 (ihl _ (by decide)) (ihr _ (by decide))).weaken (by exact hn)
    | shr => exact (Derives.shift2 (ihl _ (by decide)) (ihr _ (by decide))).weaken (by exact hn)
    | cmp3 => exact (Derives.compare1 (ihl _ (by decide)) (ihr _ (by decide))).weaken (by exact hn)
    | lt => exact (Derives.rel1 (ihl _ (by decide)) (ihr _ (by decide))).weaken (by exact hn)
    | gt => exact (Derives.rel2 (ihl _ (by decide)) (ihr _ (by decide))).weaken (by exact hn)
    | le => exact (Derives.rel3 (ihl _ (by decide)) (ihr _ (by decide))).weaken (by exact hn)
    | ge => exact (Derives.rel4 (ihl _ (by decide)) (ihr _ (by decide))).weaken (by exact hn)
    | eq => exact (Derives.eq1 (ihl _ (by decide)) (ihr _ (by decide))).weaken (by exact hn)
    | ne => exact (Derives.eq2 (ihl _ (by decide)) (ihr _ (by decide))).weaken (by exact hn)
    | band => exact (Derives.and1 (ihl _ (by decide)) (ihr _ (by decide))).weaken (by exact hn)
    | bxor => exact (Derives.xor1 (ihl _ (by decide)) (ihr _ (by decide))).weaken (by exact hn)
    | bor => exact (Derives.or1 (ihl _ (by decide)) (ihr _ (by decide))).weaken (by exact hn)
    | land => exact (Derives.land1 (ihl _ (by decide)) (ihr _ (by decide))).weaken (by exact hn)
    | lor => exact (Derives.lor1 (ihl _ (by decide)) (ihr _ (by decide))).weaken (by exact hn)
    | cond m => cases ho
  | @right k o l r ho hk hl hr ihl ihr =>
    intro n hn
    have hn : n.level ≤ o.prec := Nat.le_trans hn hk
    cases o with
    | cond m => exact (Derives.cond1 (ihl .logicalOr (Nat.le_refl 2)) (ihr .conditional (Nat.le_refl 1))).weaken (by exact hn)
    | _ => cases ho

/-- C93: the model reads a text in the one way that the productions of the standard derive it. -/
theorem C93_productions (f : Flat) (t : Tree) : (Derives .conditional t ∧ t.flat = f) ↔ t = f.parse := by
  rw [← C93_grammar]
  constructor
  · rintro ⟨h, e⟩; exact ⟨h.gram.mono (by decide), e⟩
  · rintro ⟨h, rfl⟩
    have h1 : Gram 1 t := by
      have := parse_of_gram h
      rw [← this]
      exact parse_gram (fun p _ => one_le_prec p.1)
    exact ⟨derives_of_gram h1 _ (Nat.le_refl 1), rfl⟩

/-- `1 + 2 & 3 == 4 && 5 || 6` -/
example : Derives .conditional (.node .lor (.node .land (.node .band (.node .add (.leaf (.num 1)) (.leaf (.num 2)))
      (.node .eq (.leaf (.num 3)) (.leaf (.num 4)))) (.leaf (.num 5))) (.leaf (.num 6))) ∧
    (⟨.num 1, [(.add, .num 2), (.band, .num 3), (.eq, .num 4), (.land, .num 5), (.lor, .num 6)]⟩ : Flat).parse =
      .node .lor (.node .land (.node .band (.node .add (.leaf (.num 1)) (.leaf (.num 2)))
        (.node .eq (.leaf (.num 3)) (.leaf (.num 4)))) (.leaf (.num 5))) (.leaf (.num 6)) :=
  ⟨((C93_productions ⟨.num 1, [(.add, .num 2), (.band, .num 3), (.eq, .num 4), (.land, .num 5), (.lor, .num 6)]⟩ _).2
    (by decide +kernel)).1, by decide +kernel⟩

/-! ## C92: messages with weak operators -/

/-- C92: a message `l ? m : r` where `m` and `r` have different types does not compile. -/
theorem C92_cond_types (k : MsgMacro) (p : Place) (src : String) {l r : Flat} {m : Val}
    (hl : l.Min 2) (hm : r.parse.ty ≠ some m.ty) : written sem (k.body p src (l.glue (.cond m) r)) = none := by
  obtain ⟨f, hf, e⟩ := msg_head (sem := sem) k p src
  rw [e, written_ty, parse_after (o := .cond m) hf.min (by simp [Op.prec]) hl (fun p _ => one_le_prec p.1), Tree.ty]
  cases (f <<' l).parse.ty with
  | none => rfl
  | some a =>
    cases hb : r.parse.ty with
    | none => rfl
    | some b =>
      rw [hb] at hm
      have : m.ty ≠ b := fun h => hm (by rw [h])
      simp [Op.ty, this]

example : (Flat.one (.str "a")).parse.ty ≠ some (Val.num 0).ty := by decide +kernel

/-- The value of a whole statement. -/
def result (sem : Op → Int → Int → Int) (f : Flat) : Val := (f.parse.eval sem "").1

/-- C92: the stream is taken as true: of a message `l && r`, where `l` has only operators tighter than `<<`, the value of the
statement is that of `r` as a condition; of `l || r` it is true, of `l ? m : r` it is `m`. -/
theorem C92_stream_true (k : MsgMacro) (p : Place) (src : String) {l r : Flat} (h : Part l) (hr : r.Plain) :
    (r.Min 4 → result sem (k.body p src (l.glue .land r)) = .num (if (r.value sem).truth then 1 else 0)) ∧
    (r.Min 3 → result sem (k.body p src (l.glue .lor r)) = .num 1) ∧
    (∀ m, result sem (k.body p src (l.glue (.cond m) r)) = m) := by
  obtain ⟨f, hf, e⟩ := msg_head (sem := sem) k p src
  have hs := hf.part h
  refine ⟨fun hr' => ?_, fun hr' => ?_, fun m => ?_⟩
  · rw [e, result, parse_after (o := .land) hf.min (by decide) (h.tight.mono (by decide)) hr']
    simp only [Tree.eval, hs.eval, value_eval hr, show Val.os.truth = true from rfl, if_true, ofBool]
  · rw [e, result, parse_after (o := .lor) hf.min (by decide) (h.tight.mono (by decide)) hr']
    simp only [Tree.eval, hs.eval, show Val.os.truth = true from rfl, if_true, ofBool]
  · rw [e, result, parse_after (o := .cond m) hf.min (by simp [Op.prec]) (h.tight.mono (by simp [Op.right, Op.prec]))
      (fun p _ => one_le_prec p.1)]
    simp only [Tree.eval, hs.eval, show Val.os.truth = true from rfl, if_true]

example : result arith (assertMsgText ⟨"f", 1, "g", "g"⟩ "x" ⟨.num 0, [(.land, .num 5)]⟩) = .num 1 := by decide +kernel

/-- C93: the condition of `HELPER_ASSERT_EQUAL` compares the values of the arguments, whatever operators are in them. -/
theorem C93_equal_cond (e1 e2 : Flat) (h1 : e1.Plain) (h2 : e2.Plain) (b : String) :
    (assertEqualCond e1 e2).eval sem b = (.num (sem .eq (e1.value sem).int (e2.value sem).int), b) := by
  simp only [assertEqualCond, Tree.eval, value_eval h1, value_eval h2]

example : (assertEqualCond ⟨.num 1, [(.lt, .num 2)]⟩ ⟨.num 0, [(.lor, .num 1)]⟩).eval arith "" = (.num 1, "") := by decide +kernel

end Helper.MText
