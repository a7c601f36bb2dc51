import Verif.Using.Model
/-!
# Property C98: a class with `HELPER_USING_CONSTRUCTORS` has the constructors of its base
-/
set_option linter.unusedSectionVars false
namespace Helper.Using

variable {β M : Type}

/-- Which constructor is called: the copy constructor for const objects of the class, the move constructor for rvalues, one of the first two
templates for other const lvalues, and the last one otherwise. -/
theorem choose_one (K : Base β M) (ci : Bool) (a : Arg β M) : choose K ci [a] = some (
    if a.ty = .self ∧ a.cat = .clv then .copy
    else if a.ty = .self ∧ a.cat = .rv then .move
    else if a.cat = .clv ∧ K.implicit a.ty = true then .convert
    else if a.cat = .clv ∧ K.fromBase a.ty = true ∧ ci = false then .explicit_
    else .forward) := by
  obtain ⟨ty, cat, n, b, m⟩ := a
  cases hi : K.implicit ty <;> cases hf : K.fromBase ty <;> cases ci <;> cases cat <;> cases ty <;>
    simp [choose, cands, best, better, refBetter, Cand.rank, Cat.ref, Cat.isR, Ref.isR, Ref.isConst, hi, hf]

/-! ## Specification -/

/-- What the constructors of the base give, as with `using B::B`: an object of the class or of one derived from it is copied or moved with its
members; any other arguments make the base, the members have their default values, and an explicit constructor is not used for
implicit conversions. -/
def inherited (K : Base β M) (dflt : M) (copyInit : Bool) : List (Arg β M) → Option (β × M)
  | [a] =>
    if a.ty = .self ∨ a.ty = .derived then
      (K.init [{ a with ty := .base, cat := if a.cat = .rv then .rv else .clv }]).map fun b => (b, a.m)
    else if copyInit = true ∧ K.implicit a.ty = false then none
    else (K.init [a]).map fun b => (b, dflt)
  | args => (K.init args).map fun b => (b, dflt)

theorem cat_eta (a : Arg β M) (h : a.cat = .clv) : { a with cat := .clv } = a := by
  obtain ⟨ty, cat, n, b, m⟩ := a
  cases h
  rfl

/-- What construction does for an argument that is not an object of the class: it makes the base from the argument, in both kinds of
initialisation. -/
theorem construct_one (K : Base β M) (dflt : M) (ci : Bool) (a : Arg β M) (h : a.ty ≠ .self) :
    construct K dflt ci [a] = (K.init [a]).map fun b => (b, dflt) := by
  rw [construct, choose_one]
  by_cases hc : a.cat = .clv
  · by_cases hi : K.implicit a.ty = true
    · simp [h, hc, hi, Ctor.run, cat_eta a hc]
    · by_cases hf : K.fromBase a.ty = true ∧ ci = false
      · simp [h, hc, hi, hf, Ctor.run, cat_eta a hc]
      · simp [h, hc, hi, hf, Ctor.run]
  · simp [h, hc, Ctor.run]

/-! ## Properties -/

/-- C98: direct initialisation from arguments that are not a single object of the class makes the base from these arguments, and is
well-formed exactly if this is so for the base. -/
theorem C98_direct_partial (K : Base β M) (dflt : M) (args : List (Arg β M)) (h : ∀ a, args = [a] → a.ty ≠ .self ∧ a.ty ≠ .derived) :
    construct K dflt false args = inherited K dflt false args := by
  match args, h with
  | [], _ => rfl
  | [a], h =>
    obtain ⟨h1, h2⟩ := h a rfl
    rw [construct_one K dflt false a h1]
    simp [inherited, h1, h2]
  | a :: b :: l, _ => rfl

/-- C98: implicit conversion from a type that converts to the base implicitly does the same. -/
theorem C98_implicit_partial (K : Base β M) (dflt : M) (a : Arg β M) (h1 : a.ty ≠ .self) (h2 : a.ty ≠ .derived)
    (hi : K.implicit a.ty = true) : construct K dflt true [a] = inherited K dflt true [a] := by
  rw [construct_one K dflt true a h1]
  simp [inherited, h1, h2, hi]

/-- C98 is false for explicit constructors of the base: they become implicit. -/
theorem C98_explicit_refuted (K : Base β M) (dflt : M) (a : Arg β M) (b : β) (h1 : a.ty ≠ .self) (h2 : a.ty ≠ .derived)
    (he : K.implicit a.ty = false) (hb : K.init [a] = some b) :
    construct K dflt true [a] = some (b, dflt) ∧ inherited K dflt true [a] = none := by
  rw [construct_one K dflt true a h1, hb]
  simp [inherited, h1, h2, he]

/-- C98 is false for the traits: a constructor is found for all arguments, so that `std::is_constructible` and
`std::is_convertible` are true for every type, also where the definition of the constructor is then ill-formed. -/
theorem C98_trait_refuted (K : Base β M) (dflt : M) (ci : Bool) (args : List (Arg β M)) :
    (choose K ci args).isSome = true ∧ ((∀ a, args = [a] → a.ty ≠ .self) → K.init args = none → construct K dflt ci args = none) := by
  match args with
  | [] => exact ⟨rfl, fun _ h => by simp [construct, choose, Ctor.run, h]⟩
  | [a] =>
    refine ⟨by rw [choose_one]; rfl, fun h1 h => ?_⟩
    rw [construct_one K dflt ci a (h1 a rfl), h]
    rfl
  | a :: b :: l => exact ⟨rfl, fun _ h => by simp [construct, choose, Ctor.run, h]⟩

/-- C98: const objects and rvalues of the class are copied and moved with their members. -/
theorem C98_copy_partial (K : Base β M) (dflt : M) (ci : Bool) (a : Arg β M) (h : a.ty = .self) (hc : a.cat = .clv ∨ a.cat = .rv) :
    construct K dflt ci [a] = inherited K dflt ci [a] := by
  rw [construct, choose_one]
  rcases hc with hc | hc <;> simp [h, hc, Ctor.run, inherited]

/-- C98 is false for copies of objects that are not const, and of const rvalues: the last template is the better match, and the members of the
copy have their default values. -/
theorem C98_copy_refuted (K : Base β M) (dflt : M) (ci : Bool) (a : Arg β M) (h : a.ty = .self) (hc : a.cat = .lv ∨ a.cat = .crv) :
    construct K dflt ci [a] = (K.init [a]).map fun b => (b, dflt) := by
  rw [construct, choose_one]
  rcases hc with hc | hc <;> simp [h, hc, Ctor.run]

/-- C98 is false for objects of derived classes: their members of the class are never copied. -/
theorem C98_derived_refuted (K : Base β M) (dflt : M) (ci : Bool) (a : Arg β M) (h : a.ty = .derived) :
    construct K dflt ci [a] = (K.init [a]).map fun b => (b, dflt) :=
  construct_one K dflt ci a (by rw [h]; decide)

/-- C98: in these cases the object made is not the one it should be, if it has members that differ from the default values. -/
theorem C98_members_refuted (K : Base β M) (dflt : M) (ci : Bool) (a : Arg β M) (b : β) (hb : K.init [a] = some b) (hm : a.m ≠ dflt)
    (h : (a.ty = .self ∧ (a.cat = .lv ∨ a.cat = .crv)) ∨ a.ty = .derived) : construct K dflt ci [a] ≠ inherited K dflt ci [a] := by
  have h1 : construct K dflt ci [a] = some (b, dflt) := by
    rcases h with ⟨h, hc⟩ | h
    · rw [C98_copy_refuted K dflt ci a h hc, hb]; rfl
    · rw [C98_derived_refuted K dflt ci a h, hb]; rfl
  have h2 : a.ty = .self ∨ a.ty = .derived := by
    rcases h with ⟨h, _⟩ | h
    · exact .inl h
    · exact .inr h
  rw [h1, inherited, if_pos h2]
  intro e
  cases hx : K.init [{ a with ty := .base, cat := if a.cat = .rv then .rv else .clv }] with
  | none => rw [hx] at e; cases e
  | some b' =>
    rw [hx] at e
    simp only [Option.map_some, Option.some.injEq, Prod.mk.injEq] at e
    exact hm e.2.symm

/-- The arguments that references bind to ([dcl.init.ref]). -/
def binds : Ref → Cat → Bool
  | .l, c => c = .lv
  | .cl, _ => true
  | .r, c => c = .rv
  | .cr, c => c = .rv ∨ c = .crv

/-- C98: the constructors considered are those whose parameter binds to the argument; in particular none drops its const, and the parameter of
the last template is const only if the argument is. -/
theorem C98_viable (K : Base β M) (ci : Bool) (a : Arg β M) (c : Cand) (h : c ∈ cands K ci a) :
    binds c.ref a.cat = true ∧ (c.ctor = .forward → (c.ref.isConst = true ↔ (a.cat = .clv ∨ a.cat = .crv))) := by
  obtain ⟨ty, cat, n, b, m⟩ := a
  simp only [cands, List.mem_append, List.mem_ite_nil_right, List.mem_singleton] at h
  rcases h with (((⟨_, rfl⟩ | ⟨_, rfl⟩) | rfl) | ⟨_, rfl⟩) | ⟨⟨_, rfl⟩, rfl⟩
  · exact ⟨rfl, fun h => by cases h⟩
  · exact ⟨rfl, fun h => by cases h⟩
  · cases cat <;> simp [binds, Cat.ref, Ref.isConst]
  · exact ⟨rfl, fun h => by cases h⟩
  · exact ⟨rfl, fun h => by cases h⟩

/-- Without the first two templates. -/
def forwardOnly (K : Base β M) : Base β M := { K with implicit := fun _ => false, fromBase := fun _ => false }

/-- C98: the first two templates, whose conditions tell implicit from explicit conversions (the second one with the types exchanged),
change nothing. -/
theorem C98_redundant (K : Base β M) (dflt : M) (ci : Bool) (args : List (Arg β M)) :
    construct K dflt ci args = construct (forwardOnly K) dflt ci args := by
  match args with
  | [] => rfl
  | a :: b :: l => rfl
  | [a] =>
    by_cases h : a.ty = .self
    · by_cases hc : a.cat = .clv ∨ a.cat = .rv
      · rw [construct, construct, choose_one, choose_one]
        rcases hc with hc | hc <;> simp [h, hc, Ctor.run, forwardOnly]
      · have hc' : a.cat = .lv ∨ a.cat = .crv := by
          revert hc; cases a.cat <;> simp
        rw [C98_copy_refuted K dflt ci a h hc', C98_copy_refuted (forwardOnly K) dflt ci a h hc']
        rfl
    · rw [construct_one K dflt ci a h, construct_one (forwardOnly K) dflt ci a h]
      rfl

/-! ## Examples -/

/-- A base with a default constructor, copies, and `explicit B(int)`, where `other 0` is `int`; its objects are numbers. -/
def sized : Base Nat Nat where
  init
    | [] => some 0
    | [a] => match a.ty with
      | .other 0 => some a.n.toNat
      | .other _ => none
      | _ => some a.b
    | _ => none
  implicit
    | .other _ => false
    | _ => true
  fromBase
    | .other _ => false
    | _ => true

/-- Copying an rvalue: the template `const T&`, the pack, and the compiler's constructors. -/
example : (cands sized false ⟨.self, .rv, 0, 3, 5⟩).map Cand.ctor = [.convert, .forward, .copy, .move] := by decide

/-- `D d(3);` -/
example : construct sized 7 false [⟨.other 0, .rv, 3, 0, 0⟩] = some (3, 7) := C98_direct_partial sized 7 _ (by simp)

/-- `D d = 3;` compiles, `B b = 3;` does not. -/
example : construct sized 7 true [⟨.other 0, .rv, 3, 0, 0⟩] = some (3, 7) ∧ inherited sized 7 true [⟨.other 0, .rv, 3, 0, 0⟩] = none :=
  C98_explicit_refuted sized 7 _ 3 (by simp) (by simp) rfl rfl

/-- `std::is_convertible<std::string,D>` is true, but `D d = s;` does not compile. -/
example : (choose sized true [⟨.other 1, .rv, 0, 0, 0⟩]).isSome = true ∧ construct sized 7 true [⟨.other 1, .rv, 0, 0, 0⟩] = none :=
  ⟨(C98_trait_refuted sized 7 true _).1, (C98_trait_refuted sized 7 true _).2 (by simp) rfl⟩

/-- `D e = d;` with the member 5: the copy has 7 if `d` is not const, and 5 if it is. -/
example : construct sized 7 true [⟨.self, .lv, 0, 3, 5⟩] = some (3, 7) ∧ construct sized 7 true [⟨.self, .clv, 0, 3, 5⟩] = some (3, 5) ∧
    inherited sized 7 true [⟨.self, .lv, 0, 3, 5⟩] = some (3, 5) :=
  ⟨C98_copy_refuted sized 7 true _ rfl (.inl rfl), C98_copy_partial sized 7 true _ rfl (.inl rfl), rfl⟩

end Helper.Using
