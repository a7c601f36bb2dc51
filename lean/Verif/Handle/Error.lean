import Verif.Handle.Construct
/-!
# Property C112: what failed casts of handles report (handle.hpp:123-180)

`std::cerr` is taken to be good at the start and not to throw; what is written to it is a string. `typeid(..).name()` is an arbitrary string for each
type. `_write` is user code: it writes some text, and may leave the stream failed or throw.
-/
namespace Helper.Handle

/-- The types whose names are written. -/
inductive TypeId where
  /-- a class -/ | cls (c : Nat)
  /-- pointer to const of a class -/ | ptrConst (c : Nat)
  /-- `Handle<const c>` -/ | handle (c : Nat)
deriving DecidableEq, Repr

/-- What a call of `_write` does. -/
structure Write where
  text : String
  /-- the stream is left failed -/
  fails : Bool
  throws : Option Exn

/-- A stream: what has been written, and whether it is good. -/
structure Out where
  text : String
  good : Bool
deriving DecidableEq, Repr

def Out.put (s : String) (o : Out) : Out := if o.good then { o with text := o.text ++ s } else o

/-- Lines 123-127. -/
def writeError (f : String) (w : Option Write) (i c t : String) (os : Out) : Res Unit × Out :=
  let os := (os.put "Error in ").put f |>.put ":"
  let os := os.put " cannot convert "
  let (r, os) : Res Unit × Out := match w with
    | none => (.ok (), os.put "object")
    | some w =>
      let os := os.put w.text
      let os := { os with good := os.good && !w.fails }
      match w.throws with
      | some e => (.exn e, os)
      | none => (.ok (), os)
  match r with
  | .ok () => (.ok (), os.put " of static type " |>.put c |>.put " and dynamic type " |>.put i |>.put " to type " |>.put t |>.put "\n")
  | r => (r, os)

/-- The program: the class `WritableInterface`, the names of types, and what `_write` does for an object of a given class. -/
structure Reporter extends Program where
  writable : Nat
  name : TypeId → String
  write : Nat → Write

/-- Lines 140-142, 151-153, 166-168: the error is reported for the object of class `k` behind a pointer to `i`, and `std::bad_cast` thrown. -/
def report (R : Reporter) (f : String) (i k : Nat) (t : TypeId) (os : Out) : Res Unit × Out :=
  let w := if R.cast k R.writable then some (R.write k) else none
  match writeError f w (R.name (.cls k)) (R.name (.ptrConst i)) (R.name t) os with
  | (.ok (), os') => (.exn .badCast, os')
  | r => r

/-- Lines 145-154 and 160-169 `dynamic_handle_extract<t>` on an object of class `k` behind `Handle<i>`. -/
def extractReport (R : Reporter) (i t k : Nat) (os : Out) : Res Unit × Out :=
  match R.toClasses.extract i t k with
  | .ok () => (.ok (), os)
  | _ => report R "dynamic_handle_extract" i k (.cls t) os

/-- Lines 129-143 `dynamic_handle_cast<Handle<const d>>` of a handle on an object of class `k` behind interface `i`. -/
def castReport (R : Reporter) (i d k : Nat) (os : Out) : Res Unit × Out :=
  if R.cast k d then (.ok (), os) else report R "dynamic_handle_cast" i k (.handle d) os

/-! ## Specification -/

/-- The line that a failed cast writes, given how the object, its static type, its dynamic type and the target are written. -/
def errorLine (f obj static dynamic target : String) : String :=
  "Error in " ++ f ++ ":" ++ " cannot convert " ++ obj ++ " of static type " ++ static ++ " and dynamic type " ++ dynamic ++ " to type " ++ target ++ "\n"

/-- How an object of class `k` is written: by its own `_write` if it has one. -/
def objectText (R : Reporter) (k : Nat) : String := if Derives R.toClasses k R.writable then (R.write k).text else "object"

/-- `_write` of class `k` is not called, or neither fails nor throws. -/
def WritesWell (R : Reporter) (k : Nat) : Prop :=
  Derives R.toClasses k R.writable → (R.write k).fails = false ∧ (R.write k).throws = none

theorem report_well (R : Reporter) (f : String) (i k : Nat) (t : TypeId) (hw : WritesWell R k) (log : String) :
    report R f i k t ⟨log, true⟩ =
      (.exn .badCast, ⟨log ++ errorLine f (objectText R k) (R.name (.ptrConst i)) (R.name (.cls k)) (R.name t), true⟩) := by
  have hp : ∀ a b : String, Out.put a ⟨b, true⟩ = ⟨b ++ a, true⟩ := fun _ _ => rfl
  -- the texts, taken as variables
  have hE : ∀ (a b c : String) (w : Option Write), (∀ x, w = some x → x.fails = false ∧ x.throws = none) →
      writeError f w a b c ⟨log, true⟩ =
        (.ok (), ⟨log ++ errorLine f ((w.map Write.text).getD "object") b a c, true⟩) := by
    intro a b c w hw
    unfold writeError errorLine
    generalize "Error in " = s1, ":" = s2, " cannot convert " = s3, " of static type " = s4, " and dynamic type " = s5, " to type " = s6,
      "\n" = s7, "object" = s8
    cases w with
    | none => simp only [hp, Option.map_none, Option.getD_none, String.append_assoc]
    | some x =>
      obtain ⟨h1, h2⟩ := hw x rfl
      simp only [hp, h1, h2, Bool.not_false, Bool.and_true, Option.map_some, Option.getD_some, String.append_assoc]
  by_cases hd : Derives R.toClasses k R.writable
  · have hc := (cast_iff R.toClasses R.writable k).2 hd
    have ho : objectText R k = (R.write k).text := if_pos hd
    simp only [report, if_pos hc]
    rw [hE _ _ _ (some (R.write k)) (by intro x e; cases e; exact hw hd), ho]
    rfl
  · have hc : ¬ R.cast k R.writable = true := fun h => hd ((cast_iff R.toClasses R.writable k).1 h)
    have ho : objectText R k = "object" := if_neg hd
    simp only [report, if_neg hc]
    rw [hE _ _ _ none (by intro x e; cases e), ho]
    rfl

/-- C112: a failed extraction throws `std::bad_cast` after one line on `std::cerr` that names the function, the object, its dynamic type and
the target, as long as `_write` behaves; the static type named is that of a pointer to the interface. A successful one writes nothing. -/
theorem C112_extract_partial (R : Reporter) (i t k : Nat) (hw : WritesWell R k) (log : String) :
    extractReport R i t k ⟨log, true⟩ =
      if Derives R.toClasses k t then (.ok (), ⟨log, true⟩)
      else (.exn .badCast, ⟨log ++ errorLine "dynamic_handle_extract" (objectText R k) (R.name (.ptrConst i)) (R.name (.cls k)) (R.name (.cls t)), true⟩) := by
  by_cases hd : Derives R.toClasses k t
  · rw [if_pos hd]
    simp [extractReport, (C57_extract_partial R.toClasses i t k).1.2 hd]
  · rw [if_neg hd]
    simp only [extractReport, (C57_extract_partial R.toClasses i t k).2.1.2 hd]
    exact report_well R _ i k _ hw log

/-- C112: the same for `dynamic_handle_cast`. -/
theorem C112_cast_partial (R : Reporter) (i d k : Nat) (hw : WritesWell R k) (log : String) :
    castReport R i d k ⟨log, true⟩ =
      if Derives R.toClasses k d then (.ok (), ⟨log, true⟩)
      else (.exn .badCast, ⟨log ++ errorLine "dynamic_handle_cast" (objectText R k) (R.name (.ptrConst i)) (R.name (.cls k)) (R.name (.handle d)), true⟩) := by
  by_cases hd : Derives R.toClasses k d
  · rw [if_pos hd]
    simp [castReport, (cast_iff R.toClasses d k).2 hd]
  · rw [if_neg hd]
    have hc : ¬ R.cast k d = true := fun h => hd ((cast_iff R.toClasses d k).1 h)
    simp only [castReport, if_neg hc]
    exact report_well R _ i k _ hw log

/-- C112: if `_write` leaves the stream failed, the line ends after what it wrote; `std::bad_cast` is thrown all the same. -/
theorem C112_failed (R : Reporter) (i t k : Nat) (hd : ¬ Derives R.toClasses k t) (hk : Derives R.toClasses k R.writable)
    (hf : (R.write k).fails = true) (hn : (R.write k).throws = none) (log : String) :
    extractReport R i t k ⟨log, true⟩ =
      (.exn .badCast, ⟨log ++ "Error in dynamic_handle_extract: cannot convert " ++ (R.write k).text, false⟩) := by
  have hc := (cast_iff R.toClasses R.writable k).2 hk
  simp [extractReport, (C57_extract_partial R.toClasses i t k).2.1.2 hd, report, writeError, Out.put, hc, hf, hn, String.append_assoc]

/-- C112: if `_write` throws, its exception leaves the cast instead of `std::bad_cast`. -/
theorem C112_thrown (R : Reporter) (i t k : Nat) (hd : ¬ Derives R.toClasses k t) (hk : Derives R.toClasses k R.writable)
    (e : Exn) (ht : (R.write k).throws = some e) (os : Out) :
    (extractReport R i t k os).1 = .exn e ∧ (castReport R i t k os).1 = .exn e := by
  have hc := (cast_iff R.toClasses R.writable k).2 hk
  have hc' : ¬ R.cast k t = true := fun h => hd ((cast_iff R.toClasses t k).1 h)
  constructor
  · simp [extractReport, (C57_extract_partial R.toClasses i t k).2.1.2 hd, report, writeError, hc, ht]
  · simp [castReport, hc', report, writeError, hc, ht]

/-- The three classes of `threeClasses`, where class 1 stands for `WritableInterface`. -/
def sampleReporter : Reporter where
  toProgram := threeClasses
  writable := 1
  name := fun t => match t with
    | .cls c => "C" ++ toString c
    | .ptrConst c => "PKC" ++ toString c
    | .handle c => "H" ++ toString c
  write := fun _ => ⟨"<obj>", false, none⟩

/-- C112 is false: the static type written is not the interface of the handle, but a pointer to it. -/
theorem C112_refuted :
    (extractReport sampleReporter 0 7 2 ⟨"", true⟩).2.text =
      "Error in dynamic_handle_extract: cannot convert <obj> of static type PKC0 and dynamic type C2 to type C7\n" ∧
    (extractReport sampleReporter 0 7 2 ⟨"", true⟩).2.text ≠
      errorLine "dynamic_handle_extract" "<obj>" (sampleReporter.name (.cls 0)) (sampleReporter.name (.cls 2)) (sampleReporter.name (.cls 7)) := by
  constructor <;> decide +kernel

example : castReport sampleReporter 0 1 2 ⟨"x", true⟩ = (.ok (), ⟨"x", true⟩) := by decide +kernel
example : castReport sampleReporter 0 2 0 ⟨"", true⟩ =
    (.exn .badCast, ⟨"Error in dynamic_handle_cast: cannot convert object of static type PKC0 and dynamic type C0 to type H2\n", true⟩) := by
  decide +kernel

end Helper.Handle
