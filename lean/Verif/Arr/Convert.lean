import Verif.Arr.Props
/-!
# Property C79: constructors of `Array` that convert the elements (array.hpp:90-93, 106-120)

The elements `ws` of the source have another type, so the source is no array of this heap: an initializer list of
doubles or an `Array<TT>`, whose elements cannot change meanwhile. `conv w` is `T(w)` or `T(w,pr)`; the construction
of an element may throw, as everywhere.
-/
set_option linter.unusedSectionVars false
namespace Helper.Arr

variable {V W : Type}

/-- `*first` of a foreign source. -/
def readConv (conv : W → V) (ws : List W) (i : Nat) : M V V := M.look fun _ =>
  match ws[i]? with
  | some w => .ok (conv w)
  | none => .ub .outOfBounds

/-- Lines 90-93 (`_uninitialized_fill(lst.begin(),pr)`), 106-109, 111-115 (`_uninitialized_fill(a.begin())`), 117-120; the two
`_uninitialized_fill` are lines 210-215. -/
def ctorConvert (sz : Nat) (conv : W → V) (ws : List W) (x : Nat) : M V Unit := build sz ws.length (readConv conv ws) x

/-- C79: a converting constructor does exactly what the construction from the converted values does, also if an allocation
or a construction throws. -/
theorem C79_same (sz : Nat) (dflt : V) (conv : W → V) (ws : List W) (x : Nat) (s : St V) :
    ctorConvert sz conv ws x s = op sz dflt (.ctorRange x (.ext (ws.map conv))) s := by
  have h : readConv conv ws = readSrc (.inl (ws.map conv)) := by
    funext i
    simp only [readConv, readSrc, List.getElem?_map]
    cases ws[i]? <;> rfl
  simp only [ctorConvert, op, bindSrc, M.bind, M.pure, Src.dist, List.length_map, h]
  rw [if_neg (by omega)]
  rfl

/-- C79: the new array holds the converted elements in order, and every other array keeps its value. -/
theorem C79_values_partial [Inhabited V] {sz : Nat} (hsz : 0 < sz) (conv : W → V) (ws : List W) {s : St V} (h : Valid sz s) {x : Nat}
    (hx : contents s x = none) (hw : ws.length * sz < 2 ^ 64) :
    ∃ s', ctorConvert sz conv ws x s = (.ok (), s') ∧ Valid sz s' ∧
      (∃ l, contents s' x = some l ∧ l.length = ws.length ∧ ∀ i : Nat, l[i]? = ws[i]?.map conv) ∧
      ∀ y, y ≠ x → contents s' y = contents s y := by
  obtain ⟨s', h1, h2, h3⟩ := valid_op hsz (dflt := default) (.ctorRange (r := .ext (ws.map conv)) hx (by simpa [Fits] using hw) rfl) h
  refine ⟨s', by rw [C79_same sz default, h1], h2, ⟨ws.map conv, by rw [h3 x, upd_same], by simp, by simp⟩, fun y hy => ?_⟩
  rw [h3 y, upd_ne _ _ hy]

example : (ctorConvert 8 (fun w : Int => w.natAbs) [-1, 2, -3] 0 (St.init [])).1 = .ok () ∧
    contents (ctorConvert 8 (fun w : Int => w.natAbs) [-1, 2, -3] 0 (St.init [])).2 0 = some [1, 2, 3] := by decide +kernel

/-- C79: if the construction of an element throws, the array does not come to life and its storage stays allocated. -/
example : (ctorConvert 8 (fun w : Int => w.natAbs) [-1, 2, -3] 0 (St.init [false, false, true])).1 = .exn (.user 0) ∧
    (ctorConvert 8 (fun w : Int => w.natAbs) [-1, 2, -3] 0 (St.init [false, false, true])).2.vars 0 = none ∧
    (ctorConvert 8 (fun w : Int => w.natAbs) [-1, 2, -3] 0 (St.init [false, false, true])).2.blocks 0 = some [some 1, none, none] := by
  decide +kernel

end Helper.Arr
