import Verif.Handle.Refs
/-!
# C142: `dynamic_pointer_extract` (handle.hpp:173-180) and the owners of objects
-/
set_option linter.unusedSectionVars false
namespace Helper.Handle.Extract
open Helper.Handle

variable {V : Type}

/-! ## Model -/

/-- Lines 173-180 `dynamic_pointer_extract<t>` of client pointer `p`, whose static class is `i`. The casts of `shared_ptr` return null pointers for
null pointers, and pointers that share the ownership otherwise; the pointer of line 178 is not used. -/
def pointerExtract (C : Classes) (i t p : Nat) (s : St V) : Res Unit × St V :=
  match s.ps[p]? with
  | none => (.ub .notAlive, s)
  | some none => (.ok (), { s with ps := s.ps ++ [none] })
  | some (some o) =>
    match s.objs o with
    | none => (.ub .dangling, s)
    | some (k, _) => (.ok (), { s with ps := s.ps ++ [if C.pointerExtract i t k then some o else none] })

/-- Operations on handles and pointers, with `dynamic_pointer_extract`. -/
inductive Op (V : Type) where
  | handle (o : Handle.Op V)
  | extract (i t p : Nat)

def step (C : Classes) : Op V → St V → Res Unit × St V
  | .handle o, s => Handle.step C o s
  | .extract i t p, s => pointerExtract C i t p s

/-- A history: exceptions are caught by the caller, undefined behaviour ends it. -/
def run (C : Classes) : List (Op V) → St V → Res Unit × St V
  | [], s => (.ok (), s)
  | o :: os, s =>
    match step C o s with
    | (.ub u, s') => (.ub u, s')
    | (_, s') => run C os s'

/-- The value that client pointer `p` leads to. -/
def readPtr (p : Nat) (s : St V) : Res (Nat × V) :=
  match s.ps[p]? with
  | none => .ub .notAlive
  | some none => .ub .nullDeref
  | some (some o) =>
    match s.objs o with
    | none => .ub .dangling
    | some cv => .ok cv

/-! ## Proofs -/

theorem push_inv {s : St V} (h : Inv s) {q : Option Nat} (hq : ∀ o, q = some o → Owned s o) : Inv { s with ps := s.ps ++ [q] } where
  alive := fun o ho => by
    refine h.alive o ?_
    rcases ho with ⟨x, hx⟩ | ⟨p, hp⟩
    · exact .inl ⟨x, hx⟩
    · simp only [getElem?_snoc] at hp
      split at hp
      · exact hq o (by simpa using hp)
      · exact .inr ⟨p, hp⟩
  owned := fun o cv ho => by
    rcases h.owned o cv ho with ⟨x, hx⟩ | ⟨p, hp⟩
    · exact .inl ⟨x, hx⟩
    · refine .inr ⟨p, ?_⟩
      show (s.ps ++ [q])[p]? = _
      rw [List.getElem?_append_left (List.getElem?_eq_some_iff.1 hp).1]
      exact hp
  lt := h.lt
  refs := h.refs

theorem extract_inv {C : Classes} {i t p : Nat} {s : St V} (h : Inv s) : Inv (pointerExtract C i t p s).2 := by
  unfold pointerExtract
  cases hp : s.ps[p]? with
  | none => exact h
  | some q =>
    cases q with
    | none => exact push_inv h (by simp)
    | some o =>
      cases ho : s.objs o with
      | none => simp only [ho]; exact h
      | some kv =>
        simp only [ho]
        refine push_inv h fun o' ho' => ?_
        split at ho'
        · cases ho'; exact .inr ⟨p, hp⟩
        · cases ho'

theorem run_inv {C : Classes} : ∀ (os : List (Op V)) {s : St V}, Inv s → Inv (run C os s).2
  | [], _, h => h
  | o :: os, s, h => by
    have hs : Inv (step C o s).2 := by
      cases o with
      | handle o => exact step_inv h o
      | extract i t p => exact extract_inv h
    unfold run
    cases hr : step C o s with
    | mk r s' =>
      rw [hr] at hs
      cases r with
      | ub u => exact hs
      | ok a => exact run_inv os hs
      | exn e => exact run_inv os hs
      | abort => exact run_inv os hs

/-- **C142**: in every history with extractions, the objects alive are exactly those that a handle or a pointer owns, the pointers that were returned by
`dynamic_pointer_extract` included. -/
theorem C142_lifetime (C : Classes) (os : List (Op V)) (o : Nat) :
    (∃ cv, (run C os St.init).2.objs o = some cv) ↔
    (∃ x : Nat, (run C os St.init).2.hs[x]? = some (some (some o))) ∨ ∃ p : Nat, (run C os St.init).2.ps[p]? = some (some o) := by
  have hi := run_inv (C := C) os (init_inv (V := V))
  exact ⟨fun ⟨cv, h⟩ => hi.owned o cv h, fun h => hi.alive o h⟩

/-- **C142**: after any history, `dynamic_pointer_extract` of an existing pointer returns, whatever the class of the object, and null for null. The result is
not null exactly if the object is a `t` or derives from it; then it leads to the same object. No handle, pointer or object changes. -/
theorem C142_extract (C : Classes) (os : List (Op V)) (i t : Nat) {p : Nat} {q : Option Nat} (hp : (run C os St.init).2.ps[p]? = some q) :
    ∃ q', pointerExtract C i t p (run C os St.init).2 = (.ok (), { (run C os St.init).2 with ps := (run C os St.init).2.ps ++ [q'] }) ∧
      (∀ o, q' = some o ↔ q = some o ∧ ∃ k v, (run C os St.init).2.objs o = some (k, v) ∧ Derives C k t) := by
  have hi := run_inv (C := C) os (init_inv (V := V))
  cases q with
  | none => exact ⟨none, by simp [pointerExtract, hp], by simp⟩
  | some o =>
    obtain ⟨⟨k, v⟩, ho⟩ := hi.alive o (.inr ⟨p, hp⟩)
    refine ⟨if C.pointerExtract i t k then some o else none, by simp [pointerExtract, hp, ho], fun o' => ?_⟩
    have hd := (C57_extract_partial C i t k).2.2.1
    constructor
    · intro h
      split at h
      · rename_i hc
        cases h
        exact ⟨rfl, k, v, ho, hd.1 hc⟩
      · cases h
    · rintro ⟨h, k', v', ho', hk⟩
      cases h
      rw [ho] at ho'
      cases ho'
      rw [if_pos (hd.2 hk)]

/-- **C142**: a pointer that is not null can be read through after any history. -/
theorem C142_read (C : Classes) (os : List (Op V)) {p o : Nat} (hp : (run C os St.init).2.ps[p]? = some (some o)) :
    ∃ cv, readPtr p (run C os St.init).2 = .ok cv := by
  obtain ⟨cv, h⟩ := (C142_lifetime C os o).2 (.inr ⟨p, hp⟩)
  exact ⟨cv, by simp [readPtr, hp, h]⟩

/-- Class 1 derives from class 0. -/
def two : Classes := ⟨fun k => if k = 1 then [0] else [], fun k b h => by split at h <;> simp at h; omega, fun _ _ => none, fun _ _ _ h => by simp at h⟩

/-- The handle and the pointer that the extraction started from are gone: the object is still there. -/
example : (let s := (run two [.handle (.create 1 'a'), .handle (.cmanaged 0), .extract 0 1 0, .handle (.destroy 0), .handle (.resetPtr 0)] St.init).2
    (readPtr 1 s, readPtr 0 s, s.hs)) = (.ok (1, 'a'), .ub .nullDeref, [none]) := by decide +kernel

/-- A class that does not match: null, and the object goes with its owners. -/
example : (let s := (run two [.handle (.create 0 'a'), .handle (.cmanaged 0), .extract 0 1 0, .handle (.destroy 0), .handle (.resetPtr 0)] St.init).2
    (readPtr 1 s, s.objs 0)) = (.ub .nullDeref, none) := by decide +kernel

end Helper.Handle.Extract
