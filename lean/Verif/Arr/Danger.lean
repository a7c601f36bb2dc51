import Verif.Arr.Iterators
import Verif.Arr.Faults
set_option linter.unusedSectionVars false
/-!
# Exceptions in copy assignment and `reallocate`

Supplement to C29: whatever it is that throws in one of the two dangerous operations, the array cannot
be destroyed afterwards.
-/
namespace Helper.Arr

variable {V : Type}

theorem bind_inv_exn {α β : Type} {m : M V α} {f : α → M V β} {s s' : St V} {e : Exn}
    (h : (m >>> f) s = (.exn e, s')) :
    m s = (.exn e, s') ∨ ∃ a s1, m s = (.ok a, s1) ∧ f a s1 = (.exn e, s') := by
  unfold M.bind at h
  match hm : m s with
  | (.ok a, s1) => rw [hm] at h; exact .inr ⟨a, s1, rfl, h⟩
  | (.exn e, s1) => rw [hm] at h; cases h; exact .inl rfl
  | (.ub e, s1) => rw [hm] at h; cases h
  | (.abort, s1) => rw [hm] at h; cases h

theorem getObj_inv_exn {α : Type} {x : Nat} {f : Obj → M V α} {e : Exn} {s s' : St V}
    (h : (getObj x >>> f) s = (.exn e, s')) : ∃ o, s.vars x = some o ∧ f o s = (.exn e, s') := by
  match hv : s.vars x with
  | none => simp [getObj, M.look, M.bind, hv] at h
  | some o => exact ⟨o, rfl, by rw [bind_ok (getObj_eq hv)] at h; exact h⟩

/-- A construction that throws has not touched the block. -/
theorem construct_exn {b i : Nat} {v : V} {s s' : St V} {e : Exn} (h : construct (some b) i v s = (.exn e, s')) :
    s'.blocks = s.blocks := by
  unfold construct at h
  split at h
  · rcases bind_inv_exn h with h | ⟨_, s1, _, h⟩
    · unfold tick at h; split at h <;> cases h <;> rfl
    · cases h
  · cases h
  · cases h; rfl
  · cases h

theorem construct_ok_block {b i : Nat} {v : V} {s s' : St V} {cells : List (Option V)} (hb : s.blocks b = some cells)
    (h : construct (some b) i v s = (.ok (), s')) : s'.blocks b = some (cells.set i (some v)) := by
  unfold construct at h
  split at h
  · obtain ⟨_, s1, h1, h2⟩ := bind_inv h
    have hs1 : s1.blocks = s.blocks := by
      unfold tick at h1; split at h1 <;> cases h1 <;> rfl
    cases h2
    simp only [store, hs1, hb, upd_same]
  all_goals cases h

/-- A construction loop that throws has not reached the last cell. -/
theorem constructLoop_exn {b : Nat} {src : Nat → M V V} (hsrc : ∀ i s, (src i s).2 = s) :
    ∀ (n i : Nat) (s s' : St V) (e : Exn) (cells : List (Option V)), 0 < n → s.blocks b = some cells →
      cells[i + n - 1]? = some none → constructLoop (some b) src n i s = (.exn e, s') →
      ∃ c, s'.blocks b = some c ∧ c[i + n - 1]? = some none := by
  intro n
  induction n with
  | zero => intro i s s' e cells h; omega
  | succ n ih =>
    intro i s s' e cells _ hb hc h
    rw [constructLoop] at h
    rcases bind_inv_exn h with h0 | ⟨v, s1, h1, h0⟩
    · have hs : s' = s := by simpa only [h0] using hsrc i s
      exact ⟨cells, by rw [hs]; exact hb, hc⟩
    · have hs : s1 = s := by simpa only [h1] using hsrc i s
      rw [hs] at h0
      rcases bind_inv_exn h0 with h3 | ⟨_, s2, h2, h3⟩
      · exact ⟨cells, by rw [construct_exn h3]; exact hb, hc⟩
      · cases n with
        | zero => cases h3
        | succ n =>
          have hb2 := construct_ok_block hb h2
          have := ih (i + 1) s2 s' e _ (by omega) hb2 (by
            rw [List.getElem?_set_ne (by omega), ← hc]; congr 1; omega) h3
          obtain ⟨c, h5, h4⟩ := this
          exact ⟨c, h5, by rw [← h4]; congr 1; omega⟩

theorem destroy_raw {sz : Nat} {dflt : V} {s : St V} {x n b : Nat} {c : List (Option V)}
    (hv : s.vars x = some ⟨n, some b⟩) (hn : 0 < n) (hb : s.blocks b = some c) (hc : c[n - 1]? = some none) :
    (op sz dflt (.destroy x) s).1.isUB = true := by
  rw [op, bind_ok (getObj_eq hv)]
  obtain ⟨m, rfl⟩ : ∃ m, n = m + 1 := ⟨n - 1, by omega⟩
  have hcell : cell (some b) m s = .ok none := by
    simp only [Nat.add_sub_cancel] at hc
    simp only [cell, hb, hc]
  have : destroyCell (some b) m s = (.ub .notAlive, s) := by
    unfold destroyCell; rw [hcell]
  simp only [destroyLoop, M.bind, this]
  rfl

/-- The common part of both operations. -/
theorem renew_exn {sz : Nat} (hsz : 0 < sz) {dflt : V} {s s' : St V} {sp : Spec V} (h : Sim sz s sp) {x n : Nat} {o : Obj}
    {k : List V} (hx : sp x = some k) (ho : s.vars x = some o) (hkn : k.length ≠ n) (hfit : Fits sz n)
    {src : Nat → M V V} (hsrc : ∀ i s, (src i s).2 = s) {e : Exn}
    (hop : (destroyLoop o.ptr o.size >>> fun _ => free o.ptr >>> fun _ =>
        setObj x ⟨n, o.ptr⟩ >>> fun _ =>
        alloc sz n >>> fun b => setObj x ⟨n, some b⟩ >>> fun _ =>
        constructLoop (some b) src n 0) s = (.exn e, s')) :
    (op sz dflt (.destroy x) s').1.isUB = true := by
  obtain ⟨o', ho', hw⟩ := h.alive x k hx
  rw [ho] at ho'; cases ho'
  obtain ⟨s1, s2, h1, h2, hb2, hv2, hn2, hl2, hf2⟩ := release_obj hw
  rw [bind_ok h1, bind_ok h2] at hop
  have h3 : setObj x ⟨n, o.ptr⟩ s2 = (.ok (), { s2 with vars := upd s2.vars x (some ⟨n, o.ptr⟩) }) := rfl
  rw [bind_ok h3] at hop
  rcases alloc_cases hsz hfit { s2 with vars := upd s2.vars x (some ⟨n, o.ptr⟩) } with
    ⟨s4, h4, hb4, hv4, hn4, _, _⟩ | ⟨e', s4, h4, _, hb4, hv4, _, _⟩
  · rw [bind_ok h4] at hop
    have h5 : setObj x ⟨n, some s2.next⟩ s4 = (.ok (), { s4 with vars := upd s4.vars x (some ⟨n, some s2.next⟩) }) := rfl
    rw [bind_ok h5] at hop
    have hn0 : 0 < n := by
      rcases Nat.eq_zero_or_pos n with h0 | h0
      · subst h0; cases hop
      · exact h0
    have hb5 : s4.blocks s2.next = some (List.replicate n none) := by rw [hb4, if_pos rfl]
    obtain ⟨c, hc1, hc2⟩ := constructLoop_exn (b := s2.next) hsrc n 0
      { s4 with vars := upd s4.vars x (some ⟨n, some s2.next⟩) } s' e (List.replicate n none) hn0 hb5
      (by rw [List.getElem?_replicate, if_pos (by omega)]) hop
    have hv6 : s'.vars = upd s4.vars x (some ⟨n, some s2.next⟩) := keeps_vars
      (fun y => Keeps.constructLoop (y := y) (some s2.next) (fun i s => by rw [hsrc i s]) n 0) hop
    refine destroy_raw (n := n) (b := s2.next) (by rw [hv6]; exact upd_same _ _ _) hn0 hc1 ?_
    rw [← hc2]; congr 1; omega
  · rw [bind_exn h4] at hop
    cases hop
    refine destroy_bad (n := n) (p := o.ptr) (by rw [hv4]; exact upd_same _ _ _) ?_ ?_
    · intro b hp
      rw [hb4]
      show s2.blocks b = none
      rw [hb2, if_pos hp]
    · intro hp
      have : k = [] := hw.2.1 hp
      subst this
      simp at hkn; omega

/-- C29, exactly where it fails: whenever a copy assignment between different sizes or a `reallocate` to
another size throws, for whatever reason and at whatever point, the destructor of the array is
undefined. -/
theorem C29_danger_refuted {sz : Nat} (hsz : 0 < sz) {dflt : V} {s s' : St V} (h : Sim sz s (contents s)) {o : Op V}
    {sp' : Spec V} (hm : Means sz dflt (contents s) o sp') (hd : Danger (contents s) o) {e : Exn}
    (hop : op sz dflt o s = (.exn e, s')) : (op sz dflt (.destroy o.target) s').1.isUB = true := by
  cases hm with
  | @assignCopy x y k l hx hy =>
    obtain ⟨k', l', hk, hl, hne⟩ := hd
    rw [hx] at hk; cases hk
    rw [hy] at hl; cases hl
    obtain ⟨ox, hox, hop⟩ := getObj_inv_exn hop
    obtain ⟨oy, hoy, hop⟩ := getObj_inv_exn hop
    have e1 := size_eq h hx hox
    have e2 := size_eq h hy hoy
    rw [if_neg (by omega)] at hop
    exact renew_exn hsz h hx hox (by omega) (by rw [e2]; exact h.fits y l hy) (fun _ _ => rfl) hop
  | @reallocate x n l hx hf =>
    obtain ⟨k, hk, hne⟩ := hd
    rw [hx] at hk; cases hk
    obtain ⟨ox, hox, hop⟩ := getObj_inv_exn hop
    have e1 := size_eq h hx hox
    rw [if_pos (by omega)] at hop
    exact renew_exn hsz h hx hox hne hf (fun _ _ => rfl) hop
  | _ => exact hd.elim

/-- C29: an operation within the rules that throws leaves its target destructible if and only if it
is not one of the dangerous ones. (For a constructor there is no array, and nothing to destroy.) -/
theorem C29_iff_partial {sz : Nat} (hsz : 0 < sz) {dflt : V} {s s' : St V} (h : Sim sz s (contents s)) {o : Op V}
    {sp' : Spec V} (hm : Means sz dflt (contents s) o sp') {e : Exn} (hop : op sz dflt o s = (.exn e, s'))
    (ht : contents s o.target ≠ none) :
    (op sz dflt (.destroy o.target) s').1 = .ok () ↔ ¬ Danger (contents s) o := by
  constructor
  · intro hok hd
    have := C29_danger_refuted hsz h hm hd hop
    rw [hok] at this; cases this
  · intro hd
    obtain ⟨_, _, _, h4⟩ := op_spec hsz hm h
    rw [hop] at h4
    rcases h4 with ⟨h5, _⟩ | ⟨e', _, _, h5⟩
    · cases h5
    · rcases h5 with h5 | ⟨sp'', h5, _, h7, _⟩
      · exact absurd h5 hd
      · have hne : sp'' o.target ≠ none := fun hn => ht (h7.1 hn)
        obtain ⟨l, hl⟩ := Option.ne_none_iff_exists'.mp hne
        have hmd : Means sz dflt sp'' (.destroy o.target) _ := .destroy hl
        have := op_spec hsz hmd h5
        rcases this.2.2.2 with ⟨h8, _⟩ | ⟨e2, h8, _, _⟩
        · exact h8
        · exfalso
          obtain ⟨ob, hob, hw⟩ := h5.alive _ l hl
          obtain ⟨s1, s2, g1, g2, _⟩ := release_obj hw
          rw [op, bind_ok (getObj_eq hob), bind_ok g1, bind_ok g2] at h8
          cases h8

/-- The third element constructor throws in a copy assignment; a second run in which `resize` throws. -/
example :
    (run 8 (0 : Nat) [.ctorSize 0 3, .ctorSize 1 1, .assignCopy 1 0, .destroy 1]
      (St.init [false, false, false, false, false, false, false, false, false, true])).1 =
      [.ok (), .ok (), .exn (.user 0), .ub .notAlive] ∧
    (run 8 (0 : Nat) [.ctorSize 1 1, .resize 1 3, .destroy 1]
      (St.init [false, false, false, false, true])).1 = [.ok (), .exn (.user 0), .ok ()] := by decide +kernel

end Helper.Arr
