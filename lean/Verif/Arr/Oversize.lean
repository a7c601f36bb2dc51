import Verif.Arr.Faults
import Verif.Arr.Uninit
import Verif.Arr.Convert
/-!
# Requests that do not fit into the address space: C23, C26, C77, C79

`n*sizeof(T)` is computed modulo 2^64 (array.hpp:55), so a request for more bytes than there are gives a block that is too
small. C30 says so for some constructors; this file says it for every operation with a size, in every valid state.
-/
set_option linter.unusedSectionVars false
namespace Helper.Arr

variable {V : Type}

/-- What an operation does after one that is undefined does not matter. -/
theorem bind_ub {α β : Type} {m : M V α} {f : α → M V β} {s : St V} {k : UB} (h : (m s).1 = .ub k) :
    ((m >>> f) s).1 = .ub k := by
  unfold M.bind
  match hm : m s with
  | (.ok a, s') => rw [hm] at h; cases h
  | (.exn e, s') => rw [hm] at h; cases h
  | (.ub k, s') => rw [hm] at h; simpa using h
  | (.abort, s') => rw [hm] at h; cases h

/-- The construction loop leaves a block that is too small, if its values can be read as long as nothing but the block changes. -/
theorem constructLoop_over {b : Nat} (src : Nat → M V V) (s0 : St V)
    (hsrc : ∀ i s, Same b s0 s → ∃ v, src i s = (.ok v, s)) : ∀ (m n : Nat) (done : List (Option V)) (s : St V), m < n →
      Same b s0 s → s.faults = [] → s.blocks b = some (done ++ List.replicate m none) →
      (constructLoop (some b) src n done.length s).1 = .ub .outOfBounds := by
  intro m
  induction m with
  | zero =>
    intro n done s hn h0 hf hb
    obtain ⟨n, rfl⟩ : ∃ k, n = k + 1 := ⟨n - 1, by omega⟩
    obtain ⟨v, hv⟩ := hsrc done.length s h0
    rw [constructLoop, bind_ok hv]
    have : construct (some b) done.length v s = (.ub .outOfBounds, s) := by
      simp [construct, cell, hb]
    simp [M.bind, this]
  | succ m ih =>
    intro n done s hn h0 hf hb
    obtain ⟨n, rfl⟩ : ∃ k, n = k + 1 := ⟨n - 1, by omega⟩
    obtain ⟨v, hv⟩ := hsrc done.length s h0
    rw [constructLoop, bind_ok hv]
    have hc : (done ++ List.replicate (m + 1) none)[done.length]? = some none := by
      simp [List.replicate_succ]
    rcases construct_cases hb hc v with ⟨s1, h1, hs1, hb1⟩ | ⟨e, s1, _, _, hf', _⟩
    · rw [bind_ok h1]
      have hb1' : s1.blocks b = some ((done ++ [some v]) ++ List.replicate m none) := by
        rw [hb1]; simp [List.replicate_succ]
      have := ih n (done ++ [some v]) s1 (by omega) (h0.trans hs1) (hs1.faults hf) hb1'
      simpa using this
    · exact absurd hf hf'

/-- The state after an allocation that succeeds. -/
def allocated (sz n : Nat) (s : St V) : St V :=
  { s with blocks := upd s.blocks s.next (some (List.replicate (n * sz % 2 ^ 64 / sz) none)), next := s.next + 1 }

theorem alloc_eq {sz n : Nat} {s : St V} (hf : s.faults = []) : alloc sz n s = (.ok s.next, allocated sz n s) := by
  simp [alloc, M.bind, tick, hf, allocated]

/-- Allocation and construction of `n` elements that do not fit. -/
theorem loop_over {sz n : Nat} (hsz : 0 < sz) (hn : ¬ Fits sz n) {s : St V} (hf : s.faults = []) (src : Nat → M V V)
    (hsrc : ∀ i s', s'.vars = s.vars → (∀ b, b ≠ s.next → s'.blocks b = s.blocks b) → ∃ v, src i s' = (.ok v, s')) :
    (constructLoop (some s.next) src n 0 (allocated sz n s)).1 = .ub .outOfBounds := by
  have hlt : n * sz % 2 ^ 64 / sz < n := by
    rw [Nat.div_lt_iff_lt_mul hsz]
    exact Nat.lt_of_lt_of_le (Nat.mod_lt _ (by decide)) (Nat.not_lt.1 hn)
  refine constructLoop_over src (allocated sz n s) (fun i s' hs' => hsrc i s' hs'.vars fun b hb => ?_) _ n [] _ hlt
    (Same.refl _ _) hf (by simp [allocated, upd])
  rw [hs'.blocks b hb]
  exact upd_ne _ _ hb

theorem Owns.ptr_ne {sz : Nat} {s : St V} {sp : Spec V} (h : Sim sz s sp) {o : Obj} {l : List V} (hw : Owns s o l) {b : Nat}
    (hp : o.ptr = some b) : b ≠ s.next := by
  intro hb
  have h1 := hw.2.2 b hp
  rw [h.fresh b (by omega)] at h1
  cases h1

/-- C26 is false for every size that does not fit, whatever the array holds: `resize`, `resize` with a value and `reallocate`
write outside the new block. -/
theorem C26_refuted {sz : Nat} (hsz : 0 < sz) {dflt : V} {s : St V} (h : Valid sz s) {x n : Nat} {l : List V}
    (hx : contents s x = some l) (hn : 2 ^ 64 ≤ n * sz) :
    (op sz dflt (.resize x n) s).1 = .ub .outOfBounds ∧
    (∀ v, (op sz dflt (.resizeVal x n (.ext v)) s).1 = .ub .outOfBounds) ∧
    (op sz dflt (.reallocate x n) s).1 = .ub .outOfBounds := by
  obtain ⟨o, ho, hw⟩ := h.1.alive x l hx
  have hfit : Fits sz l.length := h.1.fits x l hx
  have hn' : ¬ Fits sz n := Nat.not_lt.2 hn
  have hne : o.size ≠ n := by
    rw [hw.1]; intro he; rw [he] at hfit; exact hn' hfit
  have key : ∀ dv : M V V, (∀ s, ∃ v, dv s = (.ok v, s)) → (resizeWith sz dv x n s).1 = .ub .outOfBounds := by
    intro dv hdv
    rw [resizeWith, bind_ok (getObj_eq ho), if_pos hne, bind_ok (alloc_eq h.2)]
    refine bind_ub (loop_over hsz hn' h.2 _ fun i s' _ hb => ?_)
    by_cases hi : i < o.size
    · rw [if_pos hi]
      exact ⟨_, hw.read (by rw [← hw.1]; exact hi) fun b hp => hb b (hw.ptr_ne h.1 hp)⟩
    · rw [if_neg hi]; exact hdv s'
  refine ⟨key _ fun _ => ⟨_, rfl⟩, fun v => ?_, ?_⟩
  · have : (bindArg (.ext v) : M V _) s = (.ok (.inl v), s) := rfl
    rw [op, bind_ok this]
    exact key _ fun _ => ⟨v, rfl⟩
  · obtain ⟨s1, s2, h1, h2, h3, h4, h5, h6, h7⟩ := release_obj hw
    rw [op, bind_ok (getObj_eq ho), if_pos hne, bind_ok h1, bind_ok h2]
    have e1 : setObj x ⟨n, o.ptr⟩ s2 = (.ok (), { s2 with vars := upd s2.vars x (some ⟨n, o.ptr⟩) }) := rfl
    rw [bind_ok e1]
    have hf2 : s2.faults = [] := by rw [h7]; exact h.2
    rw [bind_ok (alloc_eq (by exact hf2))]
    rw [bind_ok (show setObj x ⟨n, some s2.next⟩ _ = (.ok (), _) from rfl)]
    have := loop_over (V := V) hsz hn'
      (s := { s2 with vars := upd (upd s2.vars x (some ⟨n, o.ptr⟩)) x (some ⟨n, some s2.next⟩) }) hf2
      (fun _ => M.pure dflt) (fun _ _ _ _ => ⟨dflt, rfl⟩)
    exact this

/-- The theorem applies: an array of three doubles, resized to 2^61. -/
example : ∃ s : St Nat, Valid 8 s ∧ contents s 0 = some [1, 2, 3] ∧ (op 8 0 (.resize 0 (2 ^ 61)) s).1 = .ub .outOfBounds := by
  have hh : Hist 8 (0 : Nat) noArrays [.ctorRange 0 (.ext [1, 2, 3])] (upd noArrays 0 (some [1, 2, 3])) :=
    .cons (.ctorRange rfl (by simp [Fits]) rfl) .nil
  have hv := valid_run (by decide) 0 hh
  have hc := (C23_values_partial (by decide) 0 hh).2 0
  rw [upd_same] at hc
  exact ⟨_, hv, hc, (C26_refuted (by decide) hv hc (by decide)).1⟩

/-- C23 is false: with sizes that do not fit the contents of an array are not those of a list, and neither are they if `assign` is
given a proper part of the array itself (`C31_assign_refuted`); an operation of each kind, in every valid state. -/
theorem C23_refuted {sz : Nat} (hsz : 0 < sz) {dflt : V} {s : St V} (h : Valid sz s) {x n : Nat} {l : List V}
    (hx : contents s x = some l) :
    (2 ^ 64 ≤ n * sz → (op sz dflt (.resize x n) s).1 = .ub .outOfBounds) ∧
    (∀ i j, i < j → j ≤ l.length → j - i ≠ l.length → (op sz dflt (.assign x (.range x i j)) s).1 = .ub .dangling) :=
  ⟨fun hn => (C26_refuted hsz h hx hn).1, fun _ _ hij hj hne => C31_assign_refuted hsz h hx hij hj hne⟩

/-- C79 is false for a source of more elements than fit: `Array<TT>` may have them, since `TT` may be smaller than `T`. -/
theorem C79_refuted {W : Type} {sz : Nat} (hsz : 0 < sz) (conv : W → V) (ws : List W) {s : St V} (hf : s.faults = []) (x : Nat)
    (hw : 2 ^ 64 ≤ ws.length * sz) : (ctorConvert sz conv ws x s).1 = .ub .outOfBounds := by
  have hpos : 0 < ws.length := by
    apply Nat.pos_of_ne_zero
    intro h0
    rw [h0] at hw
    simp at hw
  have key : ∀ (src : Nat → M V V) (n m : Nat) (done : List (Option V)) (s : St V) (b : Nat), m < n → s.faults = [] →
      s.blocks b = some (done ++ List.replicate m none) →
      (∀ i, i < done.length + n → ∀ s, ∃ v, src i s = (.ok v, s)) →
      (constructLoop (some b) src n done.length s).1 = .ub .outOfBounds := by
    intro src n m
    induction m generalizing n with
    | zero =>
      intro done s b hn hf hb hsrc
      obtain ⟨n, rfl⟩ : ∃ k, n = k + 1 := ⟨n - 1, by omega⟩
      obtain ⟨v, hv⟩ := hsrc done.length (by omega) s
      rw [constructLoop, bind_ok hv]
      have : construct (some b) done.length v s = (.ub .outOfBounds, s) := by
        simp [construct, cell, hb]
      simp [M.bind, this]
    | succ m ih =>
      intro done s b hn hf hb hsrc
      obtain ⟨n, rfl⟩ : ∃ k, n = k + 1 := ⟨n - 1, by omega⟩
      obtain ⟨v, hv⟩ := hsrc done.length (by omega) s
      rw [constructLoop, bind_ok hv]
      have hc : (done ++ List.replicate (m + 1) none)[done.length]? = some none := by
        simp [List.replicate_succ]
      rcases construct_cases hb hc v with ⟨s1, h1, hs1, hb1⟩ | ⟨e, s1, _, _, hf', _⟩
      · rw [bind_ok h1]
        have := ih n (done ++ [some v]) s1 b (by omega) (hs1.faults hf) (by rw [hb1]; simp [List.replicate_succ])
          (fun i hi => hsrc i (by simp at hi; omega))
        simpa using this
      · exact absurd hf hf'
  have hlt : ws.length * sz % 2 ^ 64 / sz < ws.length := by
    rw [Nat.div_lt_iff_lt_mul hsz]
    exact Nat.lt_of_lt_of_le (Nat.mod_lt _ (by decide)) hw
  rw [ctorConvert, build, bind_ok (alloc_eq hf)]
  refine bind_ub (key _ _ _ [] _ _ hlt hf (by simp [allocated, upd]) fun i hi s' => ?_)
  have hi : i < ws.length := by simpa using hi
  exact ⟨conv ws[i], by simp [readConv, M.look, List.getElem?_eq_getElem hi]⟩

/-- The theorem applies: an array of 2^61 characters, converted to doubles. -/
example : (ctorConvert 8 Char.toNat (List.replicate (2 ^ 61) 'x') 0 (St.init [])).1 = .ub .outOfBounds :=
  C79_refuted (by decide) _ _ rfl 0 (by rw [List.length_replicate]; decide)

/-- C77 is false for a number of elements that does not fit: the constructor succeeds, but there is no room for the last element,
so that its construction is undefined. -/
theorem C77_refuted {sz x n : Nat} (hsz : 0 < sz) (hn : 2 ^ 64 ≤ n * sz) (v : V) (s : St V) (hf : s.faults = []) :
    ∃ s', ctorUninit sz x n s = (.ok (), s') ∧ (place x (n - 1) v s').1 = .ub .outOfBounds := by
  have hlt : n * sz % 2 ^ 64 / sz < n := by
    rw [Nat.div_lt_iff_lt_mul hsz]
    exact Nat.lt_of_lt_of_le (Nat.mod_lt _ (by decide)) hn
  refine ⟨{ allocated sz n s with vars := upd s.vars x (some ⟨n, some s.next⟩) }, ?_, ?_⟩
  · rw [ctorUninit, bind_ok (alloc_eq hf)]; rfl
  · rw [place, bind_ok (getObj_eq (o := ⟨n, some s.next⟩) (upd_same _ _ _))]
    have : cell (some s.next) (n - 1) { allocated sz n s with vars := upd s.vars x (some ⟨n, some s.next⟩) } =
        .ub .outOfBounds := by
      simp only [cell, allocated, upd_same]
      rw [List.getElem?_eq_none (by rw [List.length_replicate]; omega)]
    simp [construct, this]

example : ∃ s', ctorUninit 8 0 (2 ^ 61) (St.init [] : St Nat) = (.ok (), s') ∧ (place 0 (2 ^ 61 - 1) 5 s').1 = .ub .outOfBounds :=
  C77_refuted (by decide) (by decide) 5 _ rfl

end Helper.Arr
