import Verif.Shared.Props
/-!
# C140: loops over a `SharedArray` and the life of its iterators

The iterators of `SharedArray` are plain pointers into the buffer (array.hpp:227-228, 243-246).
-/
set_option linter.unusedSectionVars false
namespace Helper.Shared

variable {V : Type}

/-! ## Model -/

/-- A pointer into a buffer. -/
structure Ptr where
  buf : Nat
  off : Nat
deriving DecidableEq, Repr

/-- array.hpp:243-244 `begin`. -/
def beginOf (s : St V) (x : Nat) : Res Ptr :=
  match s.vars[x]? with
  | none => .ub .notAlive
  | some o => .ok ⟨o.ptr, 0⟩

/-- array.hpp:245-246 `end`: `_ptr+_size`. -/
def endOf (s : St V) (x : Nat) : Res Ptr :=
  match s.vars[x]? with
  | none => .ub .notAlive
  | some o => .ok ⟨o.ptr, o.size⟩

/-- `*p` as a value. -/
def deref (s : St V) (p : Ptr) : Res V :=
  match s.bufs p.buf with
  | none => .ub .dangling
  | some l =>
    match l[p.off]? with
    | some v => .ok v
    | none => .ub .outOfBounds

/-- `*p = v`. -/
def store (s : St V) (p : Ptr) (v : V) : Res (St V) :=
  match s.bufs p.buf with
  | none => .ub .dangling
  | some l => if p.off < l.length then .ok { s with bufs := upd s.bufs p.buf (some (l.set p.off v)) } else .ub .outOfBounds

/-- `++p`: up to one past the last element. -/
def next (s : St V) (p : Ptr) : Res Ptr :=
  match s.bufs p.buf with
  | none => .ub .dangling
  | some l => if p.off < l.length then .ok ⟨p.buf, p.off + 1⟩ else .ub .outOfBounds

/-- `for(auto& v : x) v = f(v)`, from `p` to `e`; the values found are collected. The first argument bounds the number of iterations; `none` means
that it was not enough. -/
def loop (f : V → V) : Nat → Ptr → Ptr → List V → St V → Option (Res (List V × St V))
  | 0, _, _, _, _ => none
  | fuel + 1, p, e, acc, s =>
    if p = e then some (.ok (acc, s))
    else
      match deref s p with
      | .ok v =>
        match store s p (f v) with
        | .ok s =>
          match next s p with
          | .ok p => loop f fuel p e (acc ++ [v]) s
          | .ub k => some (.ub k)
          | .exn x => some (.exn x)
          | .abort => some .abort
        | .ub k => some (.ub k)
        | .exn x => some (.exn x)
        | .abort => some .abort
      | .ub k => some (.ub k)
      | .exn x => some (.exn x)
      | .abort => some .abort

/-- The range-for statement over variable `x`. -/
def forEach (f : V → V) (fuel : Nat) (x : Nat) (s : St V) : Option (Res (List V × St V)) :=
  match beginOf s x with
  | .ok b =>
    match endOf s x with
    | .ok e => loop f fuel b e [] s
    | .ub k => some (.ub k)
    | .exn x => some (.exn x)
    | .abort => some .abort
  | .ub k => some (.ub k)
  | .exn x => some (.exn x)
  | .abort => some .abort

/-! ## Proofs -/

theorem loop_run (f : V → V) {g : Nat} : ∀ (b a : List V) (acc : List V) (s : St V) (fuel : Nat), s.bufs g = some (a ++ b) → b.length < fuel →
    ∃ bufs', loop f fuel ⟨g, a.length⟩ ⟨g, a.length + b.length⟩ acc s = some (.ok (acc ++ b, { s with bufs := bufs' })) ∧
      bufs' g = some (a ++ b.map f) ∧ ∀ g', g' ≠ g → bufs' g' = s.bufs g'
  | [], a, acc, s, fuel, h, hf => by
    cases fuel with
    | zero => simp at hf
    | succ n => exact ⟨s.bufs, by simp [loop], by simpa using h, fun _ _ => rfl⟩
  | v :: b, a, acc, s, fuel, h, hf => by
    cases fuel with
    | zero => simp at hf
    | succ n =>
      have hne : (⟨g, a.length⟩ : Ptr) ≠ ⟨g, a.length + (v :: b).length⟩ := by
        intro he
        have := congrArg Ptr.off he
        simp at this
      have hd : deref s ⟨g, a.length⟩ = .ok v := by simp [deref, h]
      have hset : (a ++ v :: b).set a.length (f v) = (a ++ [f v]) ++ b := by simp
      have hs : store s ⟨g, a.length⟩ (f v) = .ok { s with bufs := upd s.bufs g (some ((a ++ [f v]) ++ b)) } := by
        simp [store, h]
      have hn : next { s with bufs := upd s.bufs g (some ((a ++ [f v]) ++ b)) } ⟨g, a.length⟩ = .ok ⟨g, (a ++ [f v]).length⟩ := by
        simp [next, upd]
      obtain ⟨bufs', h1, h2, h3⟩ := loop_run f b (a ++ [f v]) (acc ++ [v]) { s with bufs := upd s.bufs g (some ((a ++ [f v]) ++ b)) } n
        (show upd s.bufs g (some ((a ++ [f v]) ++ b)) g = _ by simp [upd]) (by simp at hf; omega)
      refine ⟨bufs', ?_, by simpa using h2, fun g' hg => ?_⟩
      · rw [loop, if_neg hne, hd]
        simp only [hs, hn]
        have he : (a ++ [f v]).length + b.length = a.length + (v :: b).length := by simp; omega
        rw [he] at h1
        rw [h1]
        simp
      · rw [h3 g' hg]; simp [upd, hg]

/-- **C140**: after any history, the statement `for(auto& v : x) v = f(v)` ends, visits the elements of `x` in order, and replaces them for all
arrays that share the buffer and for no others. -/
theorem C140_loop (dflt : V) {os : List (Op V)} {sp : Spec V} (h : Hist dflt Spec.init os sp) {s : St V} (hs : run dflt os St.init = .ok s)
    (f : V → V) {x g : Nat} (hx : sp.grp[x]? = some g) {fuel : Nat} (hf : (sp.val g).length < fuel) :
    ∃ s', forEach f fuel x s = some (.ok (sp.val g, s')) ∧
      ∀ y g' i : Nat, sp.grp[y]? = some g' → read s' y i =
        match (if g' = g then (sp.val g).map f else sp.val g')[i]? with | some v => .ok v | none => .ub .outOfBounds := by
  obtain ⟨s1, h1, hi⟩ := run_ok h Inv.init
  rw [hs] at h1
  cases h1
  obtain ⟨o, ho, hp, _, hsz, hc⟩ := hi.var hx
  obtain ⟨hb, _⟩ := hi.owned g hc
  obtain ⟨bufs', l1, l2, l3⟩ := loop_run f (sp.val g) [] [] s fuel hb hf
  refine ⟨{ s with bufs := bufs' }, ?_, fun y g' i hy => ?_⟩
  · unfold forEach beginOf endOf
    simp only [ho, hp, hsz]
    simpa using l1
  · obtain ⟨o', ho', hp', _, _, hc'⟩ := hi.var hy
    obtain ⟨hb', _⟩ := hi.owned g' hc'
    unfold read
    simp only [ho', hp']
    by_cases hg : g' = g
    · subst hg; simp only [if_true]; rw [l2]; simp only [List.nil_append]
      rfl
    · rw [l3 g' hg, hb', if_neg hg]
      rfl

/-- **C140**: an iterator taken from `x` denotes, after anything that is done to any of the arrays, the element of the same index of the buffer that `x`
had, as all its owners see it; and if the buffer has no owner any more, every use of the iterator is undefined. -/
theorem C140_life (dflt : V) {os os' : List (Op V)} {sp sp' : Spec V} (h : Hist dflt Spec.init os sp) (h' : Hist dflt sp os' sp') {s s' : St V}
    (hs : run dflt os St.init = .ok s) (hs' : run dflt os' s = .ok s') {x g i : Nat} (hx : sp.grp[x]? = some g) :
    ∃ p : Ptr, beginOf s x = .ok p ∧
      (∀ y : Nat, sp'.grp[y]? = some g → deref s' ⟨p.buf, p.off + i⟩ = read s' y i) ∧
      ((∀ y : Nat, sp'.grp[y]? ≠ some g) → deref s' ⟨p.buf, p.off + i⟩ = .ub .dangling ∧ ∀ v, store s' ⟨p.buf, p.off + i⟩ v = .ub .dangling) := by
  obtain ⟨s1, h1, hi⟩ := run_ok h Inv.init
  rw [hs] at h1
  cases h1
  obtain ⟨s2, h2, hi'⟩ := run_ok h' hi
  rw [hs'] at h2
  cases h2
  obtain ⟨o, ho, hp, _, _, _⟩ := hi.var hx
  refine ⟨⟨o.ptr, 0⟩, by simp [beginOf, ho], fun y hy => ?_, fun hno => ?_⟩
  · obtain ⟨o', ho', hp', _, _, hc'⟩ := hi'.var hy
    unfold deref read
    simp only [ho', hp, hp', Nat.zero_add]
    cases s'.bufs g with
    | none => rfl
    | some l =>
      simp only
      cases l[i]? <;> rfl
  · have hc : sp'.grp.count g = 0 := by
      rw [List.count_eq_zero]
      intro hm
      obtain ⟨y, hy, he⟩ := List.getElem_of_mem hm
      exact hno y (List.getElem?_eq_some_iff.2 ⟨hy, he⟩)
    obtain ⟨hb, _⟩ := hi'.free g hc
    constructor
    · simp [deref, hp, hb]
    · intro v; simp [store, hp, hb]

/-- **C140**: writing through an iterator is writing through every owner. -/
theorem C140_store (dflt : V) {os os' : List (Op V)} {sp sp' : Spec V} (h : Hist dflt Spec.init os sp) (h' : Hist dflt sp os' sp') {s s' : St V}
    (hs : run dflt os St.init = .ok s) (hs' : run dflt os' s = .ok s') {x y g i : Nat} (hx : sp.grp[x]? = some g) (hy : sp'.grp[y]? = some g) (v : V) :
    ∃ p : Ptr, beginOf s x = .ok p ∧ store s' ⟨p.buf, p.off + i⟩ v = op dflt (.write y i v) s' := by
  obtain ⟨s1, h1, hi⟩ := run_ok h Inv.init
  rw [hs] at h1
  cases h1
  obtain ⟨s2, h2, hi'⟩ := run_ok h' hi
  rw [hs'] at h2
  cases h2
  obtain ⟨o, ho, hp, _, _, _⟩ := hi.var hx
  obtain ⟨o', ho', hp', _, _, hc'⟩ := hi'.var hy
  refine ⟨⟨o.ptr, 0⟩, by simp [beginOf, ho], ?_⟩
  unfold store op
  simp only [ho', hp, hp', Nat.zero_add]
  cases s'.bufs g <;> rfl

/-- **C140**: the second case occurs: an iterator dangles after an assignment to the array if there is no other owner. -/
theorem C140_dangles : ∃ (os : List (Op Nat)) (s s' : St Nat) (p : Ptr), run 0 os St.init = .ok s ∧ beginOf s 0 = .ok p ∧
    op 0 (.assign 0 1) s = .ok s' ∧ deref s p = .ok 5 ∧ deref s' p = .ub .dangling ∧ read s' 0 0 = .ok 6 :=
  ⟨[.ctorFill 1 5, .ctorFill 1 6], _, _, ⟨0, 0⟩, rfl, rfl, rfl, rfl, rfl, rfl⟩

example : (match run 0 [.ctorList [1, 2, 3], .copy 0] (St.init : St Nat) with
    | .ok s => (match forEach (· + 10) 9 0 s with | some (.ok (l, s')) => some (l, read s' 1 2) | _ => none) | _ => none) =
    some ([1, 2, 3], .ok 13) := by decide

end Helper.Shared
