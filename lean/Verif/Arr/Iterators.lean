import Verif.Arr.Props
import Verif.Arr.Complement
set_option linter.unusedSectionVars false
/-!
# Iterators of `Array`

Property C88: `begin()`, `end()`, loops over an array, and how long an iterator remains usable.
-/
namespace Helper.Arr

variable {V : Type}

/-! ## Model -/

/-- array.hpp:60-61 `Iterator` and `ConstIterator` are plain pointers: a block (or null) and a
position in it. Positions before the first cell are not modelled. -/
structure Iter where
  ptr : Option Nat
  pos : Nat
deriving DecidableEq, Repr

/-- array.hpp:181, 183 `begin()`. -/
def begin (x : Nat) : M V Iter := getObj x >>> fun o => M.pure ⟨o.ptr, 0⟩

/-- array.hpp:185, 187 `end()`. -/
def finish (x : Nat) : M V Iter := getObj x >>> fun o => M.pure ⟨o.ptr, o.size⟩

/-- `it+k`. -/
def Iter.plus (it : Iter) (k : Nat) : Iter := ⟨it.ptr, it.pos + k⟩

/-- `*it`, reading. -/
def Iter.get (it : Iter) : M V V := readCell it.ptr it.pos

/-- `*it=v`. -/
def Iter.set (it : Iter) (v : V) : M V Unit := assignCell it.ptr it.pos v

/-- `for(it=first; it!=last; ++it) { body }` (the loops of array.hpp:193, 199, 202 and of clients that
say `for(auto& v : a)`), as a relation between the start and the outcome. The body works on local
variables of type `α`. A loop that never ends has no outcome. -/
inductive Loop {α : Type} (body : Iter → α → M V α) (last : Iter) : Iter → α → St V → Res α → St V → Prop
  | done {a s} : Loop body last last a s (.ok a) s
  | step {it a s a' s' r s''} : it ≠ last → body it a s = (.ok a', s') →
      Loop body last (it.plus 1) a' s' r s'' → Loop body last it a s r s''
  | exn {it a s e s'} : it ≠ last → body it a s = (.exn e, s') → Loop body last it a s (.exn e) s'
  | ub {it a s k s'} : it ≠ last → body it a s = (.ub k, s') → Loop body last it a s (.ub k) s'
  | abort {it a s s'} : it ≠ last → body it a s = (.abort, s') → Loop body last it a s .abort s'

/-- array.hpp:142 `max_size()`: `(size_t)(-1)`. -/
def maxSize : Nat := 2 ^ 64 - 1

/-! ## Specification -/

/-- What becomes of the storage of an array in one operation: another variable (or the same one) has
it, it has been released, or nobody has it although it has not been released. -/
inductive Fate where
  | held (z : Nat)
  | released
  | dropped
deriving DecidableEq, Repr

/-- The storage of `y` in an operation that takes the values `sp` to `sp'`: moves and swaps carry it
along; otherwise it stays where it is exactly if `y` has the same size as before. -/
def fate (sp sp' : Spec V) : Op V → Nat → Fate
  | .ctorMove x w, y => .held (if y = w then x else y)
  | .assignMove x w, y => if x = w then .held y else if y = x then .dropped else .held (if y = w then x else y)
  | .swap x w, y => .held (if y = x then w else if y = w then x else y)
  | _, y => if (sp y).map List.length = (sp' y).map List.length then .held y else .released

/-- In the given history the storage of `y` is never released or dropped and ends up with `z`. -/
inductive Holds (sz : Nat) (dflt : V) : Spec V → List (Op V) → Spec V → Nat → Nat → Prop
  | nil {sp y} : Holds sz dflt sp [] sp y y
  | cons {sp sp' sp'' o os y w z} : Means sz dflt sp o sp' → fate sp sp' o y = .held w →
      Holds sz dflt sp' os sp'' w z → Holds sz dflt sp (o :: os) sp'' y z

/-! ## Where the pointers go -/

theorem bind_inv {α β : Type} {m : M V α} {f : α → M V β} {s s' : St V} {b : β}
    (h : (m >>> f) s = (.ok b, s')) : ∃ a s1, m s = (.ok a, s1) ∧ f a s1 = (.ok b, s') := by
  unfold M.bind at h
  match hm : m s with
  | (.ok a, s1) => rw [hm] at h; exact ⟨a, s1, rfl, h⟩
  | (.exn e, s1) => rw [hm] at h; cases h
  | (.ub e, s1) => rw [hm] at h; cases h
  | (.abort, s1) => rw [hm] at h; cases h

theorem keeps_vars {α : Type} {m : M V α} (h : ∀ y, Keeps y m) {s s' : St V} {r : Res α} (hr : m s = (r, s')) :
    s'.vars = s.vars := by
  funext y
  have := h y s
  rw [hr] at this; exact this

theorem alloc_inv {sz n b : Nat} {s s' : St V} (h : alloc sz n s = (.ok b, s')) :
    b = s.next ∧ s'.vars = s.vars := by
  obtain ⟨_, s1, h1, h2⟩ := bind_inv h
  have hv := keeps_vars (fun y => Keeps.tick (y := y) .badAlloc) h1
  have hn : s1.next = s.next := by
    unfold tick at h1; split at h1 <;> cases h1 <;> rfl
  cases h2
  exact ⟨hn, hv⟩

theorem getObj_inv {α : Type} {x : Nat} {f : Obj → M V α} {a : α} {s s' : St V}
    (h : (getObj x >>> f) s = (.ok a, s')) : ∃ o, s.vars x = some o ∧ f o s = (.ok a, s') := by
  match hv : s.vars x with
  | none => simp [getObj, M.look, M.bind, hv] at h
  | some o => exact ⟨o, rfl, by rw [bind_ok (getObj_eq hv)] at h; exact h⟩

theorem Keeps.assignLoop {y : Nat} (p : Option Nat) {src : Nat → M V V} (h : ∀ i, Keeps y (src i)) :
    ∀ n i, Keeps y (assignLoop p src n i)
  | 0, _ => Keeps.pure _
  | n + 1, i => by
    rw [Arr.assignLoop]
    refine (h i).bind fun v => Keeps.bind ?_ fun _ => Keeps.assignLoop p h n (i + 1)
    intro s
    unfold assignCell
    split
    · apply Keeps.bind (Keeps.tick _)
      intro _ s; simp [store_vars]
    all_goals rfl

theorem Keeps.readArg {y : Nat} (r : Sum V (Option Nat × Nat)) : Keeps y (readArg r : M V V) := by
  cases r <;> exact fun _ => rfl

theorem Keeps.readSrc {y : Nat} (r : Sum (List V) (Option Nat × Nat)) (k : Nat) : Keeps y (readSrc r k : M V V) := by
  cases r <;> exact fun _ => rfl

theorem bindArg_inv {a : Arg V} {r : Sum V (Option Nat × Nat)} {s s' : St V} (h : bindArg a s = (.ok r, s')) :
    s' = s := by
  cases a with
  | ext v => cases h; rfl
  | elem y i =>
    obtain ⟨o, _, h⟩ := getObj_inv h
    cases h; rfl

theorem bindSrc_inv {a : Src V} {r : Sum (List V) (Option Nat × Nat)} {s s' : St V}
    (h : bindSrc a s = (.ok r, s')) : s' = s := by
  cases a with
  | ext v => cases h; rfl
  | range y i j =>
    obtain ⟨o, _, h⟩ := getObj_inv h
    cases h; rfl

theorem build_inv {sz n : Nat} {src : Nat → M V V} (hsrc : ∀ i y, Keeps y (src i)) {x : Nat} {s s' : St V}
    (h : build sz n src x s = (.ok (), s')) : s'.vars = upd s.vars x (some ⟨n, some s.next⟩) := by
  obtain ⟨b, s1, h1, h⟩ := bind_inv h
  obtain ⟨_, s2, h2, h⟩ := bind_inv h
  obtain ⟨hb, hv1⟩ := alloc_inv h1
  have hv2 := keeps_vars (fun y => Keeps.constructLoop (y := y) (some b) (fun i => hsrc i y) n 0) h2
  cases h
  simp only [hv2, hv1, hb]

theorem resizeWith_inv {sz : Nat} {dv : M V V} (hdv : ∀ y, Keeps y dv) {x n : Nat} {s s' : St V}
    (h : resizeWith sz dv x n s = (.ok (), s')) : ∃ o, s.vars x = some o ∧
      ((o.size = n ∧ s' = s) ∨ (o.size ≠ n ∧ s'.vars = upd s.vars x (some ⟨n, some s.next⟩))) := by
  obtain ⟨o, ho, h⟩ := getObj_inv h
  refine ⟨o, ho, ?_⟩
  by_cases hn : o.size ≠ n
  · rw [if_pos hn] at h
    obtain ⟨b, s1, h1, h⟩ := bind_inv h
    obtain ⟨_, s2, h2, h⟩ := bind_inv h
    obtain ⟨_, s3, h3, h⟩ := bind_inv h
    obtain ⟨_, s4, h4, h⟩ := bind_inv h
    obtain ⟨hb, hv1⟩ := alloc_inv h1
    have hv2 := keeps_vars (fun y => Keeps.constructLoop (y := y) (some b) (fun i => by
      split
      · exact Keeps.look _
      · exact hdv y) n 0) h2
    have hv3 := keeps_vars (fun y => Keeps.destroyLoop (y := y) o.ptr o.size) h3
    have hv4 := keeps_vars (fun y => Keeps.free (y := y) o.ptr) h4
    cases h
    exact .inr ⟨hn, by simp only [hv4, hv3, hv2, hv1, hb]⟩
  · rw [if_neg hn] at h
    cases h
    exact .inl ⟨by omega, rfl⟩

theorem fillWith_inv {x : Nat} {src : Nat → M V V} (hsrc : ∀ i y, Keeps y (src i)) {s s' : St V}
    (h : fillWith x src s = (.ok (), s')) : s'.vars = s.vars := by
  obtain ⟨o, ho, h⟩ := getObj_inv h
  exact keeps_vars (fun y => Keeps.assignLoop (y := y) o.ptr (fun i => hsrc i y) o.size 0) h

theorem destroyLoop_next (p : Option Nat) : ∀ n (s : St V), (destroyLoop p n s).2.next = s.next
  | 0, _ => rfl
  | n + 1, s => by
    rw [destroyLoop]
    have h1 : (destroyCell p n s).2.next = s.next := by
      unfold destroyCell
      split
      · simp [store]; split
        · rfl
        · split <;> rfl
      all_goals rfl
    unfold M.bind
    match hm : destroyCell p n s with
    | (.ok a, s') => rw [hm] at h1; exact (destroyLoop_next p n s').trans h1
    | (.exn e, s') => rw [hm] at h1; exact h1
    | (.ub e, s') => rw [hm] at h1; exact h1
    | (.abort, s') => rw [hm] at h1; exact h1

theorem free_next (p : Option Nat) (s : St V) : (free p s).2.next = s.next := by
  unfold free; split
  · rfl
  · split <;> rfl

/-- Releasing, then allocating and constructing anew. -/
theorem renew_inv {sz n : Nat} {x : Nat} {o : Obj} {src : Nat → M V V} (hsrc : ∀ i y, Keeps y (src i)) {s s' : St V}
    (h : (destroyLoop o.ptr o.size >>> fun _ => free o.ptr >>> fun _ =>
        setObj x ⟨n, o.ptr⟩ >>> fun _ =>
        alloc sz n >>> fun b => setObj x ⟨n, some b⟩ >>> fun _ =>
        constructLoop (some b) src n 0) s = (.ok (), s')) :
    s'.vars = upd s.vars x (some ⟨n, some s.next⟩) := by
  obtain ⟨_, s1, h1, h⟩ := bind_inv h
  obtain ⟨_, s2, h2, h⟩ := bind_inv h
  obtain ⟨_, s3, h3, h⟩ := bind_inv h
  obtain ⟨b, s4, h4, h⟩ := bind_inv h
  obtain ⟨_, s5, h5, h⟩ := bind_inv h
  have hv1 := keeps_vars (fun y => Keeps.destroyLoop (y := y) o.ptr o.size) h1
  have hn1 := destroyLoop_next o.ptr o.size s
  rw [h1] at hn1
  have hv2 := keeps_vars (fun y => Keeps.free (y := y) o.ptr) h2
  have hn2 := free_next o.ptr s1
  rw [h2] at hn2
  obtain ⟨hb, hv4⟩ := alloc_inv h4
  have hv6 := keeps_vars (fun y => Keeps.constructLoop (y := y) (some b) (fun i => hsrc i y) n 0) h
  cases h3; cases h5
  simp only at hv4 hb hn1 hn2 hv6
  rw [hv6, hv4, hv2, hv1, hb, hn2, hn1]
  funext y
  by_cases hy : y = x
  · subst hy; simp [upd]
  · simp [upd, hy]

/-- Is the operation a move or a swap? -/
def Op.carries : Op V → Bool
  | .ctorMove _ _ => true
  | .assignMove _ _ => true
  | .swap _ _ => true
  | _ => false

theorem size_eq {sz : Nat} {s : St V} {sp : Spec V} (h : Sim sz s sp) {x : Nat} {o : Obj} {l : List V}
    (hx : sp x = some l) (ho : s.vars x = some o) : o.size = l.length := by
  obtain ⟨o', ho', hw⟩ := h.alive x l hx
  rw [ho] at ho'; cases ho'; exact hw.1

/-- Only the target has a new object, whose pointer is new, and its size is not what it was. -/
theorem ptr_upd {s s' : St V} {sp sp' : Spec V} {x : Nat} {l' : Option (List V)} {o : Option Obj}
    (hv : s'.vars = upd s.vars x o) (hp : ∀ o' b, o = some o' → o'.ptr = some b → b = s.next)
    (hs : sp' = upd sp x l') (hn : (sp x).map List.length ≠ l'.map List.length) (y : Nat) :
    ((sp y).map List.length = (sp' y).map List.length → ptrOf s' y = ptrOf s y) ∧
    ((sp y).map List.length ≠ (sp' y).map List.length → ∀ b, ptrOf s' y = some b → s.next ≤ b) := by
  subst hs
  by_cases hy : y = x
  · subst hy
    rw [upd_same]
    refine ⟨fun h => absurd h hn, fun _ b hb => ?_⟩
    obtain ⟨o', ho', hb⟩ := ptrOf_some hb
    rw [hv, upd_same] at ho'
    rw [hp o' b ho' hb]; exact Nat.le_refl _
  · rw [upd_ne _ _ hy]
    refine ⟨fun _ => ?_, fun h => absurd rfl h⟩
    unfold ptrOf; rw [hv, upd_ne _ _ hy]

/-- No pointer has changed, and no size. -/
theorem ptr_keep {s s' : St V} {sp sp' : Spec V} {x : Nat} {l' : Option (List V)}
    (hv : s'.vars = s.vars) (hs : sp' = upd sp x l') (hn : (sp x).map List.length = l'.map List.length) (y : Nat) :
    ((sp y).map List.length = (sp' y).map List.length → ptrOf s' y = ptrOf s y) ∧
    ((sp y).map List.length ≠ (sp' y).map List.length → ∀ b, ptrOf s' y = some b → s.next ≤ b) := by
  subst hs
  have hp : ptrOf s' y = ptrOf s y := by unfold ptrOf; rw [hv]
  refine ⟨fun _ => hp, fun h => ?_⟩
  by_cases hy : y = x
  · subst hy; rw [upd_same] at h; exact absurd hn h
  · rw [upd_ne _ _ hy] at h; exact absurd rfl h

/-- An operation other than moves and swaps: an array keeps its storage if it keeps its size, and
has new storage, or none, otherwise. -/
theorem op_ptr {sz : Nat} (hsz : 0 < sz) {dflt : V} {s s' : St V} {sp sp' : Spec V} {o : Op V}
    (hm : Means sz dflt sp o sp') (h : Sim sz s sp) (hop : op sz dflt o s = (.ok (), s'))
    (hc : o.carries = false) (y : Nat) :
    ((sp y).map List.length = (sp' y).map List.length → ptrOf s' y = ptrOf s y) ∧
    ((sp y).map List.length ≠ (sp' y).map List.length → ∀ b, ptrOf s' y = some b → s.next ≤ b) := by
  have fresh : ∀ (n : Nat) (o' : Obj) (b : Nat), some (⟨n, some s.next⟩ : Obj) = some o' → o'.ptr = some b →
      b = s.next := by
    intro n o' b h1 h2; cases h1; cases h2; rfl
  cases hm with
  | @ctorDefault x hx =>
    cases hop
    exact ptr_upd rfl (fun o' b h1 h2 => by cases h1; cases h2) rfl (by simp [hx]) y
  | @ctorSize x n hx hf =>
    exact ptr_upd (build_inv (fun _ _ => Keeps.pure _) hop) (fresh n) rfl (by simp [hx]) y
  | @ctorFill x n a v hx hf ha =>
    obtain ⟨r, s1, h1, hop⟩ := bind_inv hop
    cases bindArg_inv h1
    exact ptr_upd (build_inv (fun _ _ => Keeps.readArg r) hop) (fresh n) rfl (by simp [hx]) y
  | @ctorRange x r vs hx hf hr =>
    obtain ⟨q, s1, h1, hop⟩ := bind_inv hop
    cases bindSrc_inv h1
    split at hop
    · obtain ⟨_, _, _, hop⟩ := bind_inv hop
      cases hop
    · exact ptr_upd (build_inv (fun i _ => Keeps.readSrc q i) hop) (fresh _) rfl (by simp [hx]) y
  | @ctorGen x n g hx hf =>
    exact ptr_upd (build_inv (fun _ _ => Keeps.pure _) hop) (fresh n) rfl (by simp [hx]) y
  | @ctorCopy x w l hx hy =>
    obtain ⟨o, ho, hop⟩ := getObj_inv hop
    exact ptr_upd (build_inv (fun i _ => Keeps.look _) hop) (fresh _) rfl (by simp [hx]) y
  | ctorMove => cases hc
  | assignMove => cases hc
  | assignMoveSelf => cases hc
  | swap => cases hc
  | @assignCopy x w k l hx hy =>
    obtain ⟨ox, hox, hop⟩ := getObj_inv hop
    obtain ⟨oy, hoy, hop⟩ := getObj_inv hop
    have e1 := size_eq h hx hox
    have e2 := size_eq h hy hoy
    by_cases hs : ox.size = oy.size
    · rw [if_pos hs] at hop
      exact ptr_keep (keeps_vars (fun y => Keeps.assignLoop (y := y) _ (fun _ => Keeps.look _) _ _) hop) rfl
        (by simp [hx]; omega) y
    · rw [if_neg hs] at hop
      exact ptr_upd (renew_inv (fun _ _ => Keeps.look _) hop) (fresh _) rfl (by simp [hx]; omega) y
  | @resize x n l hx hf =>
    obtain ⟨o, ho, h1⟩ := resizeWith_inv (fun _ => Keeps.pure _) hop
    have e1 := size_eq h hx ho
    rcases h1 with ⟨h1, rfl⟩ | ⟨h1, h2⟩
    · exact ptr_keep rfl rfl (by simp [hx]; omega) y
    · exact ptr_upd h2 (fresh _) rfl (by simp [hx]; omega) y
  | @resizeVal x n a l v hx hf ha =>
    obtain ⟨r, s1, h1, hop⟩ := bind_inv hop
    cases bindArg_inv h1
    obtain ⟨o, ho, h1⟩ := resizeWith_inv (fun _ => Keeps.readArg r) hop
    have e1 := size_eq h hx ho
    rcases h1 with ⟨h1, rfl⟩ | ⟨h1, h2⟩
    · exact ptr_keep rfl rfl (by simp [hx]; omega) y
    · exact ptr_upd h2 (fresh _) rfl (by simp [hx]; omega) y
  | @reallocate x n l hx hf =>
    obtain ⟨o, ho, hop⟩ := getObj_inv hop
    have e1 := size_eq h hx ho
    by_cases hs : o.size ≠ n
    · rw [if_pos hs] at hop
      refine ptr_upd (renew_inv (fun _ _ => Keeps.pure _) hop) (fresh _) rfl ?_ y
      rw [if_neg (by omega)]; simp [hx]; omega
    · rw [if_neg hs] at hop
      cases hop
      refine ptr_keep rfl rfl ?_ y
      rw [if_pos (by omega)]; simp [hx]
  | @write x i v l hx hi =>
    obtain ⟨o, ho, hop⟩ := getObj_inv hop
    refine ptr_keep ?_ rfl (by simp [hx]) y
    have := keeps_vars (fun y => Keeps.assignLoop (y := y) o.ptr (src := fun _ => M.pure v) (fun _ => Keeps.pure _) 1 i)
      (s := s) (s' := s') (r := .ok ())
    apply this
    simp only [assignLoop, M.bind, M.pure, hop]
  | @fill x a l v hx ha =>
    obtain ⟨r, s1, h1, hop⟩ := bind_inv hop
    cases bindArg_inv h1
    exact ptr_keep (fillWith_inv (fun _ _ => Keeps.readArg r) hop) rfl (by simp [hx]) y
  | @fillFrom x r l vs hx hr hlen =>
    obtain ⟨q, s1, h1, hop⟩ := bind_inv hop
    cases bindSrc_inv h1
    exact ptr_keep (fillWith_inv (fun i _ => Keeps.readSrc q i) hop) rfl (by simp [hx, hlen]) y
  | @assign x r l vs hx hf hr hself =>
    obtain ⟨q, s1, h1, hop⟩ := bind_inv hop
    cases bindSrc_inv h1
    obtain ⟨_, s2, h2, hop⟩ := bind_inv hop
    have hv := fillWith_inv (fun i _ => Keeps.readSrc q i) hop
    obtain ⟨o, ho, h2⟩ := resizeWith_inv (fun _ => Keeps.pure _) h2
    have e1 := size_eq h hx ho
    obtain ⟨hd, _⟩ := src_cases h hr
    have e2 : (r.dist % 2 ^ 64).toNat = vs.length := by
      have hlt : vs.length < 2 ^ 64 := Nat.lt_of_le_of_lt (Nat.le_mul_of_pos_right _ hsz) hf
      rw [hd]; omega
    rcases h2 with ⟨h1, rfl⟩ | ⟨h1, h2⟩
    · exact ptr_keep hv rfl (by simp [hx]; omega) y
    · exact ptr_upd (hv.trans h2) (fresh _) rfl (by simp [hx]; omega) y
  | @destroy x l hx =>
    obtain ⟨o, ho, hop⟩ := getObj_inv hop
    obtain ⟨_, s2, h2, hop⟩ := bind_inv hop
    obtain ⟨_, s3, h3, hop⟩ := bind_inv hop
    have hv2 := keeps_vars (fun y => Keeps.destroyLoop (y := y) o.ptr o.size) h2
    have hv3 := keeps_vars (fun y => Keeps.free (y := y) o.ptr) h3
    cases hop
    exact ptr_upd (o := none) (by simp only [hv3, hv2]) (fun _ _ h => by cases h) rfl (by simp [hx]) y

theorem begin_eq {s : St V} {y : Nat} {o : Obj} (h : s.vars y = some o) :
    begin y s = (.ok ⟨o.ptr, 0⟩, s) := by
  rw [begin, bind_ok (getObj_eq h)]; rfl

theorem finish_eq {s : St V} {y : Nat} {o : Obj} (h : s.vars y = some o) :
    finish y s = (.ok ⟨o.ptr, o.size⟩, s) := by
  rw [finish, bind_ok (getObj_eq h)]; rfl

theorem begin_inv {s s' : St V} {y : Nat} {it : Iter} (h : begin y s = (.ok it, s')) :
    s' = s ∧ ∃ o, s.vars y = some o ∧ it = ⟨o.ptr, 0⟩ := by
  obtain ⟨o, ho, h⟩ := getObj_inv h
  cases h; exact ⟨rfl, o, ho, rfl⟩

/-- Reading element `i` through an iterator to the beginning of `z`. -/
theorem get_of_owner {sz : Nat} {s : St V} {sp : Spec V} (h : Sim sz s sp) {z : Nat} {l : List V} {o : Obj}
    (hz : sp z = some l) (ho : s.vars z = some o) {i : Nat} (hi : i < l.length) :
    ((⟨o.ptr, 0⟩ : Iter).plus i).get s = (.ok l[i], s) := by
  obtain ⟨o', ho', hw⟩ := h.alive z l hz
  rw [ho] at ho'; cases ho'
  have := hw.read (s' := s) hi (fun b _ => rfl)
  simpa [Iter.plus, Iter.get] using this

/-- The storage of `y` is with `z`. -/
theorem held_of_ptr {sz : Nat} {s s' : St V} {sp' : Spec V} (h' : Sim sz s' sp') {y z : Nat}
    {l l' : List V} (hz : sp' z = some l') (hl : l'.length = l.length)
    (hp : ptrOf s' z = ptrOf s y) {it : Iter} (hit : begin y s = (.ok it, s)) :
    begin z s' = (.ok it, s') ∧ ∀ i (hi : i < l.length), (it.plus i).get s' = (.ok (l'[i]'(hl ▸ hi)), s') := by
  obtain ⟨oz, hoz, hwz⟩ := h'.alive z l' hz
  obtain ⟨_, oy, hoy, rfl⟩ := begin_inv hit
  rw [ptrOf_eq hoz, ptrOf_eq hoy] at hp
  refine ⟨by rw [begin_eq hoz, hp], fun i hi => ?_⟩
  rw [← hp]
  exact get_of_owner h' hz hoz (hl ▸ hi)

theorem fate_of_carries {sp sp' : Spec V} {o : Op V} (hc : o.carries = false) (y : Nat) :
    fate sp sp' o y = if (sp y).map List.length = (sp' y).map List.length then .held y else .released := by
  cases o <;> first | rfl | cases hc

/-- Moves and swaps: where the pointers go and how the values follow. -/
theorem carry_spec {sz : Nat} {dflt : V} {s s' : St V} {sp sp' : Spec V} {o : Op V}
    (hm : Means sz dflt sp o sp') (hop : op sz dflt o s = (.ok (), s')) (hc : o.carries = true) {y z : Nat}
    {l : List V} (hy : sp y = some l) (hf : fate sp sp' o y = .held z) : sp' z = some l ∧ ptrOf s' z = ptrOf s y := by
  have key : ∀ {x w : Nat} {o : Obj} {l' : List V}, sp w = some l' → x ≠ w → s.vars w = some o → ¬ y = x →
      s'.vars = upd (upd s.vars x (some o)) w (some ⟨0, none⟩) → (if y = w then x else y) = z →
      upd (upd sp x (some l')) w (some []) z = some l ∧ ptrOf s' z = ptrOf s y := by
    intro x w o l' hw hxw ho hyx hv hz
    unfold ptrOf
    rw [hv]
    by_cases hyw : y = w
    · subst hyw
      rw [if_pos rfl] at hz; subst hz
      rw [upd_ne _ _ hxw, upd_same, upd_ne _ _ hxw, upd_same, ho, ← hw, hy]
      exact ⟨rfl, rfl⟩
    · rw [if_neg hyw] at hz; subst hz
      rw [upd_ne _ _ hyw, upd_ne _ _ hyx, upd_ne _ _ hyw, upd_ne _ _ hyx]
      exact ⟨hy, rfl⟩
  cases hm with
  | @ctorMove x w l' hx hw =>
    obtain ⟨o, ho, hop⟩ := getObj_inv hop
    cases hop
    refine key hw (fun h => ?_) ho (fun h => ?_) rfl (by simpa [fate] using hf)
    · subst h; rw [hx] at hw; cases hw
    · subst h; rw [hx] at hy; cases hy
  | @assignMove x w k l' hx hw hxw =>
    obtain ⟨o', ho', hop⟩ := getObj_inv hop
    obtain ⟨o, ho, hop⟩ := getObj_inv hop
    rw [if_pos hxw] at hop
    cases hop
    rw [fate, if_neg hxw] at hf
    by_cases hyx : y = x
    · rw [if_pos hyx] at hf; cases hf
    · rw [if_neg hyx] at hf
      exact key hw hxw ho hyx rfl (by simpa using hf)
  | @assignMoveSelf x l' hx =>
    obtain ⟨o', ho', hop⟩ := getObj_inv hop
    obtain ⟨o, ho, hop⟩ := getObj_inv hop
    rw [if_neg (by simp)] at hop
    cases hop
    rw [fate, if_pos rfl] at hf
    cases hf
    exact ⟨hy, rfl⟩
  | @swap x w k l' hx hw =>
    obtain ⟨ox, hox, hop⟩ := getObj_inv hop
    obtain ⟨ow, how, hop⟩ := getObj_inv hop
    cases hop
    simp only [fate, Fate.held.injEq] at hf
    unfold ptrOf
    simp only
    by_cases hyx : y = x
    · subst hyx
      rw [if_pos rfl] at hf; subst hf
      rw [upd_same, upd_same, hox, ← hx, hy]
      exact ⟨rfl, rfl⟩
    · rw [if_neg hyx] at hf
      by_cases hyw : y = w
      · subst hyw
        rw [if_pos rfl] at hf; subst hf
        rw [upd_ne _ _ (Ne.symm hyx), upd_same, upd_ne _ _ (Ne.symm hyx), upd_same, how, ← hw, hy]
        exact ⟨rfl, rfl⟩
      · rw [if_neg hyw] at hf; subst hf
        rw [upd_ne _ _ hyw, upd_ne _ _ hyx, upd_ne _ _ hyw, upd_ne _ _ hyx]
        exact ⟨hy, rfl⟩
  | _ => cases hc

/-! ## C88: one operation -/

/-- C88: an iterator into `y` whose storage is held by `z` after an operation is an iterator into
`z`: it is where `z` begins, and reads the elements of `z`. In particular it survives every
operation that does not change the size of `y`, and follows moves and swaps. -/
theorem C88_held {sz : Nat} (hsz : 0 < sz) {dflt : V} {s : St V} {sp' : Spec V} {o : Op V} (h : Valid sz s)
    (hm : Means sz dflt (contents s) o sp') {y z : Nat} {l : List V} (hy : contents s y = some l)
    (hf : fate (contents s) sp' o y = .held z) {it : Iter} (hit : begin y s = (.ok it, s)) :
    ∃ s' l', op sz dflt o s = (.ok (), s') ∧ contents s' z = some l' ∧ l'.length = l.length ∧
      begin z s' = (.ok it, s') ∧ ∀ i, i < l.length → ∃ v, l'[i]? = some v ∧ (it.plus i).get s' = (.ok v, s') := by
  obtain ⟨s', hop, h', _⟩ := op_ok hsz hm h.1 h.2
  have key : ∃ l', sp' z = some l' ∧ l'.length = l.length ∧ ptrOf s' z = ptrOf s y := by
    match hc : o.carries with
    | true =>
      obtain ⟨h1, h2⟩ := carry_spec hm hop hc hy hf
      exact ⟨l, h1, rfl, h2⟩
    | false =>
      rw [fate_of_carries hc] at hf
      split at hf
      · rename_i he
        cases hf
        rw [hy] at he
        match hz : sp' y with
        | none => rw [hz] at he; cases he
        | some l' =>
          refine ⟨l', rfl, ?_, ((op_ptr hsz hm h.1 hop hc y).1 (by rw [hy]; exact he))⟩
          rw [hz] at he
          exact (Option.some.inj he).symm
      · cases hf
  obtain ⟨l', hz, hl, hp⟩ := key
  obtain ⟨h1, h2⟩ := held_of_ptr h' hz hl hp hit
  refine ⟨s', l', hop, by rw [h'.contents, hz], hl, h1, fun i hi => ⟨_, ?_, h2 i hi⟩⟩
  exact List.getElem?_eq_getElem _

/-- C88: if the storage is released, every use of the iterator is undefined. -/
theorem C88_released {sz : Nat} (hsz : 0 < sz) {dflt : V} {s : St V} {sp' : Spec V} {o : Op V} (h : Valid sz s)
    (hm : Means sz dflt (contents s) o sp') {y : Nat} {l : List V} (hy : contents s y = some l) (hl : l ≠ [])
    (hf : fate (contents s) sp' o y = .released) {it : Iter} (hit : begin y s = (.ok it, s)) :
    ∃ s', op sz dflt o s = (.ok (), s') ∧
      ∀ i, (it.plus i).get s' = (.ub .dangling, s') ∧ ∀ v, (it.plus i).set v s' = (.ub .dangling, s') := by
  obtain ⟨s', hop, h', _, _, hk, hd⟩ := op_ok hsz hm h.1 h.2
  have hc : o.carries = false := by
    match o, hf with
    | .ctorMove _ _, hf => cases hf
    | .assignMove x w, hf =>
      rw [fate] at hf
      split at hf
      · cases hf
      · split at hf <;> cases hf
    | .swap _ _, hf => cases hf
    | .ctorDefault _, _ | .ctorSize _ _, _ | .ctorFill _ _ _, _ | .ctorRange _ _, _ | .ctorGen _ _ _, _
    | .ctorCopy _ _, _ | .assignCopy _ _, _ | .resize _ _, _ | .resizeVal _ _ _, _ | .reallocate _ _, _
    | .write _ _ _, _ | .fill _ _, _ | .fillFrom _ _, _ | .assign _ _, _ | .destroy _, _ => rfl
  rw [fate_of_carries hc] at hf
  split at hf
  · cases hf
  rename_i hne
  obtain ⟨_, oy, hoy, rfl⟩ := begin_inv hit
  obtain ⟨oy', hoy', hw⟩ := h.1.alive y l hy
  rw [hoy] at hoy'; cases hoy'
  match hpy : oy.ptr with
  | none => exact absurd (hw.2.1 hpy) hl
  | some b =>
    have hblt := h.1.lt hoy hpy
    have hnone : s'.blocks b = none := by
      apply Classical.byContradiction
      intro hb
      have hno : ¬ Owned s' b := by
        rintro ⟨w, ow, how, hpw⟩
        have hpw' : ptrOf s' w = some b := by rw [ptrOf_eq how, hpw]
        by_cases hsame : (contents s w).map List.length = (sp' w).map List.length
        · have := (op_ptr hsz hm h.1 hop hc w).1 hsame
          rw [hpw'] at this
          obtain ⟨ow', how', hpw''⟩ := ptrOf_some this.symm
          have := h.1.distinct w y ow' oy b how' hoy hpw'' hpy
          subst this
          exact hne hsame
        · have := (op_ptr hsz hm h.1 hop hc w).2 hsame b hpw'
          omega
      rcases hd b ⟨hb, hno⟩ with hleak | hdrop
      · exact hleak.2 ⟨y, oy, hoy, hpy⟩
      · cases o <;> first | exact hdrop | cases hc
    refine ⟨s', hop, fun i => ⟨?_, fun v => ?_⟩⟩
    · simp [Iter.get, Iter.plus, readCell, M.look, cell, hnone]
    · simp [Iter.set, Iter.plus, assignCell, cell, hnone]

/-- C88: after `x = std::move(w)` the old iterators of `x` still read its old elements, which no array
has any more, whatever the program does next. -/
theorem C88_dropped {sz : Nat} (hsz : 0 < sz) {dflt : V} {s : St V} {sp' : Spec V} {o : Op V} (h : Valid sz s)
    (hm : Means sz dflt (contents s) o sp') {y : Nat} {l : List V} (hy : contents s y = some l) (hl : l ≠ [])
    (hf : fate (contents s) sp' o y = .dropped) {it : Iter} (hit : begin y s = (.ok it, s)) :
    ∃ s', op sz dflt o s = (.ok (), s') ∧ ∀ os sp'', Hist sz dflt sp' os sp'' →
      (∀ z, begin z (run sz dflt os s').2 ≠ (.ok it, (run sz dflt os s').2)) ∧
      ∀ i (hi : i < l.length), (it.plus i).get (run sz dflt os s').2 = (.ok l[i], (run sz dflt os s').2) := by
  have : ∃ x w, o = .assignMove x w ∧ x ≠ w ∧ y = x := by
    match o, hf with
    | .assignMove x w, hf =>
      rw [fate] at hf
      split at hf
      · cases hf
      · rename_i hxw
        split at hf
        · rename_i hyx; exact ⟨x, w, rfl, hxw, hyx⟩
        · cases hf
    | .ctorMove _ _, hf => cases hf
    | .swap _ _, hf => cases hf
    | .ctorDefault _, hf | .ctorSize _ _, hf | .ctorFill _ _ _, hf | .ctorRange _ _, hf | .ctorGen _ _ _, hf
    | .ctorCopy _ _, hf | .assignCopy _ _, hf | .resize _ _, hf | .resizeVal _ _ _, hf | .reallocate _ _, hf
    | .write _ _ _, hf | .fill _ _, hf | .fillFrom _ _, hf | .assign _ _, hf | .destroy _, hf =>
      rw [fate_of_carries rfl] at hf; split at hf <;> cases hf
  obtain ⟨y, w, rfl, hyw, rfl⟩ := this
  obtain ⟨_, oy, hoy, rfl⟩ := begin_inv hit
  obtain ⟨oy', hoy', hw⟩ := h.1.alive y l hy
  rw [hoy] at hoy'; cases hoy'
  match hpy : oy.ptr with
  | none => exact absurd (hw.2.1 hpy) hl
  | some b =>
    have hpb : ptrOf s y = some b := by rw [ptrOf_eq hoy, hpy]
    have hex : ∃ k, contents s w = some k ∧ sp' = upd (upd (contents s) y (some k)) w (some []) := by
      cases hm with
      | assignMove h1 h2 h3 => exact ⟨_, h2, rfl⟩
      | assignMoveSelf => exact absurd rfl hyw
    obtain ⟨k, hk, hsp'⟩ := hex
    obtain ⟨s', h1, h2, h3, h4⟩ := C25_moveAssign_leaks hsz (dflt := dflt) h hy hk hyw hpb
    obtain ⟨s'', g1, g2, _⟩ := op_ok hsz hm h.1 h.2
    rw [h1] at g1; cases g1
    refine ⟨s', h1, fun os sp'' hh => ?_⟩
    have := h4 os sp'' (by rw [← g2.eq_contents]; exact hh)
    obtain ⟨h5, h6⟩ := this
    refine ⟨fun z hz => ?_, fun i hi => ?_⟩
    · obtain ⟨_, oz, hoz, hze⟩ := begin_inv hz
      simp only [Iter.mk.injEq, and_true] at hze
      exact h5.2 ⟨z, oz, hoz, hze.symm⟩
    · simp only [Iter.plus, Iter.get, Nat.zero_add]
      exact readCell_eq h6 hi

/-! ## C88: histories -/

/-- C88: through any history in which the storage is never released or dropped, an iterator taken at
the start reads and writes the elements of the array that has the storage in the end. -/
theorem C88_history {sz : Nat} (hsz : 0 < sz) {dflt : V} {os : List (Op V)} {sp sp' : Spec V} {y z : Nat}
    (hh : Holds sz dflt sp os sp' y z) : ∀ {s : St V} {l : List V} {it : Iter}, Valid sz s → sp = contents s →
      contents s y = some l → begin y s = (.ok it, s) →
    ∃ s' l', run sz dflt os s = (List.replicate os.length (.ok ()), s') ∧ contents s' z = some l' ∧
      l'.length = l.length ∧ begin z s' = (.ok it, s') ∧
      ∀ i, i < l.length → (∃ v, l'[i]? = some v ∧ (it.plus i).get s' = (.ok v, s')) ∧
        ∀ v, (it.plus i).set v s' = op sz dflt (.write z i v) s' := by
  induction hh with
  | @nil sp y =>
    intro s l it h hsp hy hit
    refine ⟨s, l, rfl, hy, rfl, hit, fun i hi => ?_⟩
    obtain ⟨_, o, ho, rfl⟩ := begin_inv hit
    refine ⟨⟨l[i], List.getElem?_eq_getElem hi, get_of_owner h.1 hy ho hi⟩, fun v => ?_⟩
    rw [op, bind_ok (getObj_eq ho)]
    simp [Iter.plus, Iter.set]
  | @cons sp sp1 sp2 o os y w z hm hf _ ih =>
    intro s l it h hsp hy hit
    subst hsp
    obtain ⟨s1, l1, h1, h2, h3, h4, _⟩ := C88_held hsz h hm hy hf hit
    obtain ⟨s1', g1, g2, g3, _⟩ := op_ok hsz hm h.1 h.2
    rw [h1] at g1; cases g1
    have hv : Valid sz s1 := ⟨by rw [← g2.eq_contents]; exact g2, g3⟩
    obtain ⟨s2, l2, k1, k2, k3, k4, k5⟩ := ih hv g2.eq_contents h2 h4
    refine ⟨s2, l2, ?_, k2, by omega, k4, fun i hi => k5 i (by omega)⟩
    rw [run, h1]; simp only [k1, List.length_cons, List.replicate_succ]

/-! ## C88: loops -/

/-- The outcome of a loop is unique. -/
theorem Loop.unique {α : Type} {body : Iter → α → M V α} {last it : Iter} {a : α} {s s1 s2 : St V} {r1 r2 : Res α}
    (h1 : Loop body last it a s r1 s1) (h2 : Loop body last it a s r2 s2) : r1 = r2 ∧ s1 = s2 := by
  induction h1 generalizing r2 s2 with
  | done =>
    cases h2 with
    | done => exact ⟨rfl, rfl⟩
    | step h => exact absurd rfl h
    | exn h => exact absurd rfl h
    | ub h => exact absurd rfl h
    | abort h => exact absurd rfl h
  | step hne hb _ ih =>
    cases h2 with
    | done => exact absurd rfl hne
    | step _ hb' h => rw [hb] at hb'; cases hb'; exact ih h
    | exn _ hb' => rw [hb] at hb'; cases hb'
    | ub _ hb' => rw [hb] at hb'; cases hb'
    | abort _ hb' => rw [hb] at hb'; cases hb'
  | exn hne hb =>
    cases h2 with
    | done => exact absurd rfl hne
    | step _ hb' h => rw [hb] at hb'; cases hb'
    | exn _ hb' => rw [hb] at hb'; cases hb'; exact ⟨rfl, rfl⟩
    | ub _ hb' => rw [hb] at hb'; cases hb'
    | abort _ hb' => rw [hb] at hb'; cases hb'
  | ub hne hb =>
    cases h2 with
    | done => exact absurd rfl hne
    | step _ hb' h => rw [hb] at hb'; cases hb'
    | exn _ hb' => rw [hb] at hb'; cases hb'
    | ub _ hb' => rw [hb] at hb'; cases hb'; exact ⟨rfl, rfl⟩
    | abort _ hb' => rw [hb] at hb'; cases hb'
  | abort hne hb =>
    cases h2 with
    | done => exact absurd rfl hne
    | step _ hb' h => rw [hb] at hb'; cases hb'
    | exn _ hb' => rw [hb] at hb'; cases hb'
    | ub _ hb' => rw [hb] at hb'; cases hb'
    | abort _ hb' => rw [hb] at hb'; cases hb'; exact ⟨rfl, rfl⟩

/-- C88: a loop over a live array that reads the elements ends, visits every element once, in order,
and nothing else: whatever it computes from what it sees is computed from the contents. -/
theorem C88_loop {α : Type} {sz : Nat} {s : St V} (h : Valid sz s) {x : Nat} {l : List V} (hx : contents s x = some l)
    (g : α → V → α) (a : α) :
    ∃ first last, begin x s = (.ok first, s) ∧ finish x s = (.ok last, s) ∧
      ∀ r s', Loop (fun it a => it.get >>> fun v => M.pure (g a v)) last first a s r s' ↔
        r = .ok (l.foldl g a) ∧ s' = s := by
  obtain ⟨o, ho, hw⟩ := h.1.alive x l hx
  refine ⟨_, _, begin_eq ho, finish_eq ho, ?_⟩
  have key : ∀ k i (a : α), i + k = l.length →
      Loop (fun it a => it.get >>> fun v => M.pure (g a v)) (⟨o.ptr, o.size⟩ : Iter) ⟨o.ptr, i⟩ a s
        (.ok ((l.drop i).foldl g a)) s := by
    intro k
    induction k with
    | zero =>
      intro i a hi
      rw [hw.1, ← hi, Nat.add_zero, List.drop_of_length_le (by omega)]
      exact .done
    | succ k ih =>
      intro i a hi
      have hil : i < l.length := by omega
      rw [List.drop_eq_getElem_cons hil, List.foldl_cons]
      refine .step (a' := g a l[i]) (s' := s) ?_ ?_ (ih (i + 1) _ (by omega))
      · intro he
        simp only [Iter.mk.injEq, true_and] at he
        rw [hw.1] at he; omega
      · have := get_of_owner h.1 hx ho hil
        simp only [Iter.plus, Nat.zero_add] at this
        rw [bind_ok this]; rfl
  intro r s'
  have hk := key l.length 0 a (by omega)
  rw [List.drop_zero] at hk
  constructor
  · intro hr; exact hr.unique hk
  · rintro ⟨rfl, rfl⟩; exact hk

/-- C88: a loop that replaces every element by a function of it, as in `for(auto& v : a) { v=f(v); }`,
does so, and changes no other array. -/
theorem C88_update {sz : Nat} (hsz : 0 < sz) {s : St V} (h : Valid sz s) {x : Nat} {l : List V}
    (hx : contents s x = some l) (f : V → V) :
    ∃ first last s', begin x s = (.ok first, s) ∧ finish x s = (.ok last, s) ∧ Valid sz s' ∧
      contents s' = upd (contents s) x (some (l.map f)) ∧
      ∀ r s'', Loop (fun it (_ : Unit) => it.get >>> fun v => it.set (f v)) last first () s r s'' ↔
        r = .ok () ∧ s'' = s' := by
  obtain ⟨o, ho, hw⟩ := h.1.alive x l hx
  have key : ∀ k i s, Valid sz s → s.vars x = some o → contents s x = some ((l.take i).map f ++ l.drop i) →
      i + k = l.length → ∃ s', Valid sz s' ∧ contents s' = upd (contents s) x (some (l.map f)) ∧
        Loop (fun it (_ : Unit) => it.get >>> fun v => it.set (f v)) ⟨o.ptr, o.size⟩ ⟨o.ptr, i⟩ () s (.ok ()) s' := by
    intro k
    induction k with
    | zero =>
      intro i s h hv hc hi
      refine ⟨s, h, ?_, ?_⟩
      · rw [List.take_of_length_le (by omega), List.drop_of_length_le (by omega), List.append_nil] at hc
        rw [upd_self hc]
      · rw [hw.1, ← hi, Nat.add_zero]; exact .done
    | succ k ih =>
      intro i s h hv hc hi
      have hil : i < l.length := by omega
      have hlen : ((l.take i).map f ++ l.drop i).length = l.length := by simp; omega
      have hiq : i < ((l.take i).map f ++ l.drop i).length := by omega
      have hm : Means sz (f l[i]) (contents s) (.write x i (f l[i])) _ := .write hc hiq
      obtain ⟨s1, h1, h2, h3, _⟩ := op_ok hsz hm h.1 h.2
      have hp1 := op_ptr hsz hm h.1 h1 rfl x
      have hl1 : ((l.take i).map f ++ l.drop i).set i (f l[i]) = (l.take (i + 1)).map f ++ l.drop (i + 1) := by
        have hti : ((l.take i).map f).length = i := by simp; omega
        rw [List.set_append, if_neg (by omega), hti, Nat.sub_self, List.drop_eq_getElem_cons hil,
          List.set_cons_zero]
        rw [← List.take_append_getElem hil, List.map_append, List.append_assoc]
        rfl
      have hc1 : contents s1 x = some ((l.take (i + 1)).map f ++ l.drop (i + 1)) := by
        rw [h2.contents, upd_same, hl1]
      have hv1 : s1.vars x = some o := by
        obtain ⟨o1, ho1, hw1⟩ := h2.alive x _ (upd_same _ _ _)
        have e1 := hp1.1 (by rw [upd_same, hc]; simp)
        rw [ptrOf_eq ho1, ptrOf_eq hv] at e1
        have e2 := hw1.1
        rw [List.length_set, hlen, ← hw.1] at e2
        rw [ho1]
        cases o1; cases o; simp only at e1 e2; rw [e1, e2]
      obtain ⟨s', g1, g2, g3⟩ := ih (i + 1) s1 ⟨by rw [← h2.eq_contents]; exact h2, h3⟩ hv1 hc1 (by omega)
      refine ⟨s', g1, ?_, .step (a' := ()) (s' := s1) ?_ ?_ g3⟩
      · rw [g2, ← h2.eq_contents]
        funext y
        by_cases hy : y = x
        · subst hy; rw [upd_same, upd_same]
        · rw [upd_ne _ _ hy, upd_ne _ _ hy, upd_ne _ _ hy]
      · intro he
        simp only [Iter.mk.injEq, true_and] at he
        rw [hw.1] at he; omega
      · have hr := get_of_owner h.1 hc hv hiq
        simp only [Iter.plus, Nat.zero_add] at hr
        rw [bind_ok hr]
        have hval : ((l.take i).map f ++ l.drop i)[i] = l[i] := by
          rw [List.getElem_append_right (by simp; omega)]
          simp [Nat.min_eq_left (Nat.le_of_lt hil)]
        rw [hval]
        rw [op, bind_ok (getObj_eq hv)] at h1
        exact h1
  obtain ⟨s', h1, h2, h3⟩ := key l.length 0 s h ho (by simpa using hx) (by omega)
  refine ⟨_, _, s', begin_eq ho, finish_eq ho, h1, h2, fun r s'' => ⟨fun hr => hr.unique h3, ?_⟩⟩
  rintro ⟨rfl, rfl⟩; exact h3

/-- C88: `begin()` and `end()` of a live array are `size()` apart in the same storage; they are equal
exactly for the empty array; dereferencing `end()` is undefined; and the bytes of an array, let alone
its elements, number at most `max_size()`. -/
theorem C88_ends {sz : Nat} {s : St V} (h : Valid sz s) {x : Nat} {l : List V} (hx : contents s x = some l) :
    ∃ first, begin x s = (.ok first, s) ∧ finish x s = (.ok (first.plus l.length), s) ∧
      (first = first.plus l.length ↔ l = []) ∧
      (∃ k, (first.plus l.length).get s = (.ub k, s)) ∧ l.length * sz ≤ maxSize := by
  obtain ⟨o, ho, hw⟩ := h.1.alive x l hx
  refine ⟨_, begin_eq ho, ?_, ?_, ?_, ?_⟩
  · rw [finish_eq ho, hw.1]; simp [Iter.plus]
  · simp only [Iter.plus, Iter.mk.injEq, true_and, Nat.zero_add]
    rw [eq_comm, List.length_eq_zero_iff]
  · match hp : o.ptr with
    | none => exact ⟨.nullDeref, by simp [Iter.plus, Iter.get, readCell, cell, M.look]⟩
    | some b =>
      exact ⟨.outOfBounds, by simp [Iter.plus, Iter.get, readCell, cell, M.look, hw.2.2 b hp]⟩
  · have := h.1.fits x l hx
    unfold Fits at this; unfold maxSize; omega

/-! ## Examples -/

/-- Two arrays. -/
def twoArrays : St Nat := (run 8 0 [.ctorRange 0 (.ext [1, 2, 3]), .ctorRange 1 (.ext [7, 8])] (St.init [])).2

example : contents twoArrays 0 = some [1, 2, 3] ∧ contents twoArrays 1 = some [7, 8] ∧
    (begin 0 twoArrays).1 = .ok ⟨some 0, 0⟩ ∧ (finish 0 twoArrays).1 = .ok ⟨some 0, 3⟩ := by decide +kernel

/-- Kept by an assignment of the same size, followed through a swap, lost by resizing. -/
example : ((⟨some 0, 1⟩ : Iter).get (op 8 0 (.assign 0 (.ext [4, 5, 6])) twoArrays).2).1 = .ok 5 ∧
    ((⟨some 0, 1⟩ : Iter).get (op 8 0 (.swap 0 1) twoArrays).2).1 = .ok 2 ∧
    ((⟨some 0, 1⟩ : Iter).get (op 8 0 (.assignMove 0 1) twoArrays).2).1 = .ok 2 ∧
    ((⟨some 0, 1⟩ : Iter).get (op 8 0 (.assignCopy 0 1) twoArrays).2).1 = .ub .dangling ∧
    ((⟨some 0, 1⟩ : Iter).get (op 8 0 (.resize 0 4) twoArrays).2).1 = .ub .dangling ∧
    ((⟨some 0, 1⟩ : Iter).get (op 8 0 (.destroy 0) twoArrays).2).1 = .ub .dangling := by decide +kernel

theorem twoArrays_hist : Hist 8 0 noArrays [.ctorRange 0 (.ext [1, 2, 3]), .ctorRange 1 (.ext [7, 8])]
    (upd (upd noArrays 0 (some [1, 2, 3])) 1 (some [7, 8])) :=
  .cons (.ctorRange (vs := [1, 2, 3]) rfl (by unfold Fits; decide) rfl)
    (.cons (.ctorRange (vs := [7, 8]) rfl (by unfold Fits; decide) rfl) .nil)

theorem twoArrays_valid : Valid 8 twoArrays := by
  obtain ⟨s', h1, h2, h3, _⟩ := run_ok (by decide) twoArrays_hist (Sim.init 8 []) rfl
  have : s' = twoArrays := by unfold twoArrays; rw [h1]
  subst this
  exact ⟨by rw [← h2.eq_contents]; exact h2, h3⟩

/-- The hypotheses of C88_held, C88_released and C88_dropped can be met. -/
example : (∃ sp', Means 8 0 (contents twoArrays) (.swap 0 1) sp' ∧ fate (contents twoArrays) sp' (.swap 0 1) 0 = .held 1) ∧
    (∃ sp', Means 8 0 (contents twoArrays) (.resize 0 4) sp' ∧
      fate (contents twoArrays) sp' (.resize 0 4) 0 = .released) ∧
    (∃ sp', Means 8 0 (contents twoArrays) (.assignMove 0 1) sp' ∧
      fate (contents twoArrays) sp' (.assignMove 0 1) 0 = .dropped) :=
  have h0 : contents twoArrays 0 = some [1, 2, 3] := by decide +kernel
  have h1 : contents twoArrays 1 = some [7, 8] := by decide +kernel
  ⟨⟨_, .swap h0 h1, rfl⟩, ⟨_, .resize h0 (by unfold Fits; decide), by
    rw [fate_of_carries rfl, if_neg]; rw [upd_same, h0]; decide⟩, ⟨_, .assignMove h0 h1 (by decide), rfl⟩⟩

/-- A history that the storage of array 0 survives: it is overwritten, swapped, and moved on. -/
example : ∃ sp', Holds 8 0 (contents twoArrays) [.write 0 1 5, .swap 0 1, .ctorMove 2 1, .resize 0 9] sp' 0 2 :=
  have h0 : contents twoArrays 0 = some [1, 2, 3] := by decide +kernel
  have h1 : contents twoArrays 1 = some [7, 8] := by decide +kernel
  have h2 : contents twoArrays 2 = none := by decide +kernel
  ⟨_, .cons (.write h0 (by decide)) (by rw [fate_of_carries rfl, if_pos]; rw [upd_same, h0]; rfl)
    (.cons (.swap rfl (by rw [upd_ne _ _ (by decide)]; exact h1)) rfl
    (.cons (.ctorMove (by rw [upd_ne _ _ (by decide), upd_ne _ _ (by decide), upd_ne _ _ (by decide)]; exact h2) rfl) rfl
    (.cons (.resize rfl (by unfold Fits; decide)) (by rw [fate_of_carries rfl, if_pos] <;> rfl) .nil)))⟩

end Helper.Arr
