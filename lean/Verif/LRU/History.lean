import Verif.LRU.Refine
/-!
# The recency list of an LRU cache in terms of the history of calls
-/
set_option linter.unusedSectionVars false
namespace Helper.LRU

variable {L : Type u} {V : Type v} [Cmp L] [StrictWeak L]

/-- The equivalence class of a label, as a predicate. -/
def cls (l : L) : L → Bool := Cmp.equiv l

theorem cls_eq {a b : L} : cls a = cls b ↔ Cmp.equiv a b = true := by
  constructor
  · intro h
    have : cls a b = cls b b := by rw [h]
    simpa [cls] using this
  · intro h; funext x; exact Cmp.equiv_of_equiv_left h

/-- Used label classes, most recently used first. -/
def recency : List (Event L V) → List (L → Bool)
  | [] => []
  | ev :: older =>
    match usedLabel ev with
    | some k => cls k :: (recency older).filter (fun c => !c k)
    | none => recency older

theorem recency_cls (t : List (Event L V)) : ∀ c ∈ recency t, ∃ x, c = cls x := by
  induction t with
  | nil => simp [recency]
  | cons ev older ih =>
    unfold recency
    cases usedLabel ev with
    | none => exact ih
    | some k =>
      intro c hc
      rcases List.mem_cons.1 hc with rfl | hc
      · exact ⟨k, rfl⟩
      · exact ih c (List.mem_filter.1 hc).1

theorem recency_nodup (t : List (Event L V)) : (recency t).Nodup := by
  induction t with
  | nil => simp [recency]
  | cons ev older ih =>
    unfold recency
    cases usedLabel ev with
    | none => exact ih
    | some k =>
      simp only [List.nodup_cons]
      refine ⟨fun h => ?_, ih.filter _⟩
      have := (List.mem_filter.1 h).2
      simp [cls] at this

/-- The classes used since the last use of `l` are those in front of `l` in the recency list. -/
theorem distinctSince_perm (t : List (Event L V)) (l : L) :
    ((distinctSince t l).map cls).Perm ((recency t).takeWhile (fun c => !c l)) := by
  induction t with
  | nil => simp [distinctSince, recency]
  | cons ev older ih =>
    unfold distinctSince recency
    cases hu : usedLabel ev with
    | none => simpa using ih
    | some k =>
      simp only
      by_cases hkl : Cmp.equiv k l = true
      · simp [hkl, List.takeWhile_cons, cls]
      · have hkl' : Cmp.equiv k l = false := by simpa using hkl
        have hlk : Cmp.equiv l k = false := by rw [Cmp.equiv_comm]; exact hkl'
        have hck : (cls k : L → Bool) l = false := hkl'
        simp only [hkl, List.takeWhile_cons, hck, Bool.not_false]
        have hcomm : ∀ R : List (L → Bool), (∀ c ∈ R, ∃ x, c = cls x) →
            (R.filter (fun c => !c k)).takeWhile (fun c => !c l) =
            (R.takeWhile (fun c => !c l)).filter (fun c => !c k) := by
          intro R hR
          induction R with
          | nil => rfl
          | cons c R ihR =>
            have ihR := ihR (fun c hc => hR c (List.mem_cons_of_mem _ hc))
            obtain ⟨x, hx⟩ := hR c (by simp)
            by_cases hcl : c l = true
            · have : c k = false := by
                rw [hx] at hcl ⊢
                simp only [cls] at hcl ⊢
                rw [Cmp.equiv_of_equiv_left hcl]; exact hlk
              simp [List.takeWhile_cons, List.filter_cons, this, hcl]
            · by_cases hck : c k = true
              · simp [List.takeWhile_cons, List.filter_cons, hck, hcl, ihR]
              · simp [List.takeWhile_cons, List.filter_cons, hck, hcl, ihR]
        rw [hcomm _ (recency_cls older)]
        have hany : (distinctSince older l).any (fun x => Cmp.equiv x k) = true ↔
            cls k ∈ (recency older).takeWhile (fun c => !c l) := by
          rw [← ih.mem_iff]
          simp [cls_eq]
        have hnd : ((recency older).takeWhile (fun c => !c l)).Nodup :=
          (recency_nodup older).sublist (List.takeWhile_sublist _)
        have hcl : ∀ c ∈ (recency older).takeWhile (fun c => !c l), (c k = true ↔ c = cls k) := by
          intro c hc
          obtain ⟨x, hx⟩ := recency_cls older c ((List.takeWhile_sublist _).mem hc)
          rw [hx, cls_eq]; simp [cls]
        simp only [if_true, if_false, Bool.false_eq_true]
        generalize (recency older).takeWhile (fun c => !c l) = W at *
        by_cases hin : cls k ∈ W
        · rw [if_pos (hany.2 hin)]
          refine ih.trans ?_
          clear ih hany
          induction W with
          | nil => simp at hin
          | cons w W ihW =>
            rw [List.nodup_cons] at hnd
            by_cases hw : w k = true
            · have := (hcl w (by simp)).1 hw
              subst this
              rw [List.filter_cons, hw]
              simp only [Bool.not_true, Bool.false_eq_true, if_false]
              rw [List.filter_eq_self.2]
              intro c hc
              have h1 : ¬ (c k = true) := fun h => hnd.1 (by
                rw [← (hcl c (List.mem_cons_of_mem _ hc)).1 h]; exact hc)
              simpa using h1
            · rw [List.filter_cons]
              simp only [Bool.not_eq_true] at hw
              simp only [hw, Bool.not_false, if_true]
              have : cls k ∈ W := by
                rcases List.mem_cons.1 hin with h | h
                · rw [← h] at hw; simp [cls] at hw
                · exact h
              have := ihW hnd.2 (fun c hc => hcl c (List.mem_cons_of_mem _ hc)) this
              exact (this.cons w).trans (List.Perm.swap _ _ _)
        · have hna : (distinctSince older l).any (fun x => Cmp.equiv x k) = false := by
            cases h : (distinctSince older l).any (fun x => Cmp.equiv x k)
            · rfl
            · exact absurd (hany.1 h) hin
          rw [hna]
          simp only [List.map_cons, Bool.false_eq_true, if_false]
          rw [List.filter_eq_self.2]
          · exact ih.cons _
          · intro c hc
            have : ¬ (c k = true) := fun h => hin (by rw [← (hcl c hc).1 h]; exact hc)
            simpa using this

theorem lastUse_le (t : List (Event L V)) (l : L) : lastUse t l ≤ t.length := by
  induction t with
  | nil => simp [lastUse]
  | cons ev older ih =>
    unfold lastUse
    cases usedLabel ev with
    | none => simp; omega
    | some k => by_cases h : Cmp.equiv k l = true <;> simp [h]; omega

theorem lastUse_congr (t : List (Event L V)) {a b : L} (h : Cmp.equiv a b = true) :
    lastUse t a = lastUse t b := by
  induction t with
  | nil => simp [lastUse]
  | cons ev older ih =>
    unfold lastUse
    cases usedLabel ev with
    | none => simpa using ih
    | some k => simp only [Cmp.equiv_of_equiv_right h, ih]

theorem lastPut_congr (t : List (Event L V)) {a b : L} (h : Cmp.equiv a b = true) :
    lastPut t a = lastPut t b := by
  induction t with
  | nil => simp [lastPut]
  | cons ev older ih =>
    obtain ⟨cl, r⟩ := ev
    cases cl <;> cases r <;> simp only [lastPut, Cmp.equiv_of_equiv_right h, ih]

theorem used_iff (t : List (Event L V)) (l : L) : 0 < lastUse t l ↔ cls l ∈ recency t := by
  induction t with
  | nil => simp [lastUse, recency]
  | cons ev older ih =>
    unfold lastUse recency
    cases usedLabel ev with
    | none => exact ih
    | some k =>
      by_cases h : Cmp.equiv k l = true
      · simp [h, cls_eq.2 h]
      · have h' : Cmp.equiv l k = false := by rw [Cmp.equiv_comm]; simpa using h
        simp only [h, List.mem_cons, List.mem_filter, cls, Bool.false_eq_true, if_false, h']
        rw [ih]
        constructor
        · intro h; exact .inr ⟨h, by simp⟩
        · rintro (h2 | h2)
          · exact absurd (Cmp.equiv_symm (cls_eq.1 h2)) (by rw [Cmp.equiv_comm, h']; simp)
          · exact h2.1

/-- The recency list of the specification, in terms of its trace. -/
structure Hist (t : List (Event L V)) (s : Spec L V) : Prop where
  recent : s.items.map (fun p => cls p.1) = (recency t).take s.cap
  uses : s.items.Pairwise (fun p q => lastUse t q.1 < lastUse t p.1)
  values : ∀ p ∈ s.items, lastPut t p.1 = some p.2
  count : s.items.length = min s.cap (putCount t)

theorem hist_nil (n : Nat) : Hist ([] : List (Event L V)) ⟨n, []⟩ :=
  ⟨by simp [recency], by simp, by simp, by simp [putCount]⟩

theorem recency_neutral {t : List (Event L V)} {ev : Event L V} (h : usedLabel ev = none) :
    recency (ev :: t) = recency t ∧ (∀ l, lastUse (ev :: t) l = lastUse t l) := by
  constructor
  · simp [recency, h]
  · intro l; simp [lastUse, h]

theorem Hist.neutral {t : List (Event L V)} {s : Spec L V} (h : Hist t s) {ev : Event L V}
    (hu : usedLabel ev = none) (hp : putCount (ev :: t) = putCount t)
    (hl : ∀ l, lastPut (ev :: t) l = lastPut t l) : Hist (ev :: t) s := by
  obtain ⟨h1, h2⟩ := recency_neutral (t := t) hu
  refine ⟨by rw [h1]; exact h.recent, by simpa [h2] using h.uses, ?_, by rw [hp]; exact h.count⟩
  intro p hp; rw [hl]; exact h.values p hp

theorem Hist.pairwise_cls {t : List (Event L V)} {s : Spec L V} (h : Hist t s) :
    s.items.Pairwise (fun p q => Cmp.equiv p.1 q.1 = false) := by
  have h1 : (s.items.map (fun p => cls p.1)).Nodup := by
    rw [h.recent]; exact (recency_nodup t).sublist (List.take_sublist _ _)
  rw [List.Nodup, List.pairwise_map] at h1
  refine h1.imp fun hab => ?_
  simpa using fun h => hab (cls_eq.2 h)

theorem Hist.call {t : List (Event L V)} {s : Spec L V} (h : Hist t s) (hpos : 0 < s.cap)
    (cl : Call L V) : Hist ((cl, (s.call cl).1) :: t) (s.call cl).2 := by
  cases cl with
  | hasLabel l => exact h.neutral rfl rfl (fun _ => rfl)
  | currentSize => exact h.neutral rfl rfl (fun _ => rfl)
  | maximumSize => exact h.neutral rfl rfl (fun _ => rfl)
  | age l =>
    simp only [Spec.call]
    cases s.items.findIdx? (fun p => Cmp.equiv p.1 l) with
    | none => exact h.neutral rfl rfl (fun _ => rfl)
    | some i => exact h.neutral rfl rfl (fun _ => rfl)
  | get l =>
    simp only [Spec.call]
    cases hf : s.items.find? (fun p => Cmp.equiv p.1 l) with
    | none => exact h.neutral rfl rfl (fun _ => rfl)
    | some p =>
      simp only
      have hp := List.mem_of_find?_eq_some hf
      have hpl : Cmp.equiv p.1 l = true := by simpa using List.find?_some hf
      obtain ⟨a, b, hs⟩ := List.append_of_mem hp
      have hpw := h.pairwise_cls
      rw [hs, List.pairwise_append] at hpw
      have hq : ∀ q ∈ a ++ b, Cmp.equiv q.1 l = false := by
        intro q hq
        rw [← Cmp.equiv_of_equiv_right hpl]
        rcases List.mem_append.1 hq with hq | hq
        · exact hpw.2.2 q hq p (by simp)
        · rw [Cmp.equiv_comm]; exact (List.pairwise_cons.1 hpw.2.1).1 q hq
      have hsub : (s.items.filter (fun q => !Cmp.equiv q.1 l)).Sublist s.items := List.filter_sublist
      have hlu : ∀ q : L × V, Cmp.equiv q.1 l = false →
          lastUse ((.get l, .ok (.val p.2)) :: t) q.1 = lastUse t q.1 := by
        intro q hq
        rw [Cmp.equiv_comm] at hq
        simp [lastUse, usedLabel, hq]
      refine ⟨?_, ?_, ?_, ?_⟩
      · simp only [recency, usedLabel, List.map_cons]
        have hc := Nat.succ_pred_eq_of_pos hpos
        rw [← hc, List.take_succ_cons, cls_eq.2 hpl]
        congr 1
        have h1 := (spec_find_split hs hq hpl).2.1
        have h2 : (s.items.filter (fun q => !Cmp.equiv q.1 l)).map (fun p => cls p.1) =
            (s.items.map (fun p => cls p.1)).filter (fun c => !c l) := by
          rw [List.filter_map]; rfl
        rw [h2, h.recent]
        -- filtering commutes with taking one element less
        have hin : ∃ c ∈ (recency t).take s.cap, c l = true := by
          rw [← h.recent]
          exact ⟨cls p.1, List.mem_map_of_mem (f := fun p : L × V => cls p.1) hp, hpl⟩
        have hone : ∀ c ∈ recency t, ∀ d ∈ recency t, c l = true → d l = true → c = d := by
          intro c hc d hd hcl hdl
          obtain ⟨x, rfl⟩ := recency_cls t c hc
          obtain ⟨y, rfl⟩ := recency_cls t d hd
          rw [cls_eq]; exact Cmp.equiv_trans hcl (Cmp.equiv_symm hdl)
        have hnd := recency_nodup t
        generalize recency t = R at hin hone hnd
        revert hin
        rw [← hc]
        generalize Nat.pred s.cap = m
        intro hin
        show _ = List.take m _
        clear hf hp hs h2 h1 hc
        induction R generalizing m with
        | nil => simp at hin
        | cons c R ih =>
          rw [List.nodup_cons] at hnd
          by_cases hcl : c l = true
          · have hR : ∀ d ∈ R, (!d l) = true := by
              intro d hd
              have : ¬ (d l = true) := fun hdl =>
                hnd.1 (by rw [hone c (by simp) d (List.mem_cons_of_mem _ hd) hcl hdl]; exact hd)
              simpa using this
            simp only [List.take_succ_cons, List.filter_cons, hcl, Bool.not_true,
              Bool.false_eq_true, if_false]
            rw [List.filter_eq_self.2 hR, List.filter_eq_self.2]
            intro d hd; exact hR d ((List.take_sublist _ _).mem hd)
          · simp only [List.take_succ_cons, List.filter_cons, hcl, Bool.not_false, if_true]
            cases m with
            | zero =>
              simp only [Nat.zero_add, List.take_succ_cons, List.take_zero, List.mem_singleton] at hin
              obtain ⟨d, hd, hdl⟩ := hin
              subst hd; exact absurd hdl hcl
            | succ m =>
              rw [List.take_succ_cons]
              congr 1
              refine ih (fun c hc d hd => hone c (List.mem_cons_of_mem _ hc) d (List.mem_cons_of_mem _ hd))
                hnd.2 m ?_
              obtain ⟨d, hd, hdl⟩ := hin
              rw [List.take_succ_cons] at hd
              rcases List.mem_cons.1 hd with hd | hd
              · subst hd; exact absurd hdl hcl
              · exact ⟨d, hd, hdl⟩
      · refine List.Pairwise.cons ?_ ?_
        · intro q hq
          have hql : Cmp.equiv q.1 l = false := by simpa using (List.mem_filter.1 hq).2
          rw [hlu q hql]
          have : lastUse ((.get l, .ok (.val p.2)) :: t) p.1 = t.length + 1 := by
            simp [lastUse, usedLabel, Cmp.equiv_symm hpl]
          rw [this]
          have := lastUse_le t q.1; omega
        · have h1 := h.uses.sublist hsub
          refine h1.imp_of_mem fun {a b} ha hb hab => ?_
          have hal : Cmp.equiv a.1 l = false := by simpa using (List.mem_filter.1 ha).2
          have hbl : Cmp.equiv b.1 l = false := by simpa using (List.mem_filter.1 hb).2
          rw [hlu a hal, hlu b hbl]; exact hab
      · intro q hq
        show lastPut t q.1 = some q.2
        rcases List.mem_cons.1 hq with rfl | hq
        · exact h.values _ hp
        · exact h.values _ (hsub.mem hq)
      · show (p :: s.items.filter (fun q => !Cmp.equiv q.1 l)).length = min s.cap (putCount t)
        rw [(spec_find_split hs hq hpl).2.1, ← h.count, hs]
        simp; omega
  | put l v =>
    simp only [Spec.call]
    cases hh : s.has l with
    | true => exact h.neutral rfl rfl (fun _ => rfl)
    | false =>
      rw [spec_has_false] at hh
      have hlu : ∀ q ∈ s.items, lastUse ((.put l v, .ok (.unit)) :: t) q.1 = lastUse t q.1 := by
        intro q hq
        have := hh q hq
        rw [Cmp.equiv_comm] at this
        simp [lastUse, usedLabel, this]
      simp only [Bool.false_eq_true, if_false]
      have hc := Nat.succ_pred_eq_of_pos hpos
      refine ⟨?_, ?_, ?_, ?_⟩
      · simp only [recency, usedLabel, List.map_cons]
        rw [← hc, List.take_succ_cons]
        congr 1
        rw [List.map_take, h.recent]
        have hnot : ∀ c ∈ (recency t).take s.cap, c l = false := by
          rw [← h.recent]
          intro c hc
          obtain ⟨p, hp, rfl⟩ := List.mem_map.1 hc
          exact hh p hp
        rw [hc, List.take_take, show min (s.cap - 1) s.cap = s.cap - 1 by omega, Nat.pred_eq_sub_one]
        have hnot' : ∀ c ∈ (recency t).take (s.cap - 1), c l = false := fun c hc => hnot c (by
          have : (recency t).take (s.cap - 1) = ((recency t).take s.cap).take (s.cap - 1) := by
            rw [List.take_take]; congr 1; omega
          rw [this] at hc; exact (List.take_sublist _ _).mem hc)
        generalize recency t = R at hnot'
        generalize s.cap - 1 = m at hnot'
        clear hnot hlu hh hc
        induction R generalizing m with
        | nil => simp
        | cons c R ih =>
          cases m with
          | zero => simp
          | succ m =>
            rw [List.take_succ_cons] at hnot'
            have hcl := hnot' c (by simp)
            rw [List.take_succ_cons, List.filter_cons]
            simp only [hcl, Bool.not_false, if_true, List.take_succ_cons]
            rw [← ih m fun c hc => hnot' c (List.mem_cons_of_mem _ hc)]
      · refine List.Pairwise.cons ?_ ?_
        · intro q hq
          rw [hlu q ((List.take_sublist _ _).mem hq)]
          have : lastUse ((.put l v, .ok (.unit)) :: t) l = t.length + 1 := by
            simp [lastUse, usedLabel]
          show _ < lastUse ((.put l v, .ok (.unit)) :: t) l
          rw [this]
          have := lastUse_le t q.1; omega
        · have h1 := h.uses.sublist (List.take_sublist (s.cap - 1) _)
          refine h1.imp_of_mem fun {a b} ha hb hab => ?_
          rw [hlu a ((List.take_sublist _ _).mem ha), hlu b ((List.take_sublist _ _).mem hb)]
          exact hab
      · intro q hq
        rcases List.mem_cons.1 hq with rfl | hq
        · simp [lastPut]
        · have hq := (List.take_sublist _ _).mem hq
          have := hh q hq
          rw [Cmp.equiv_comm] at this
          simp only [lastPut, this]
          simpa using h.values q hq
      · have := h.count
        simp only [List.length_cons, List.length_take, putCount]
        omega

theorem spec_call_cap (s : Spec L V) (cl : Call L V) : (s.call cl).2.cap = s.cap := by
  cases cl <;> simp only [Spec.call] <;> split <;> rfl

theorem run_hist {n : Nat} (hn : 0 < n) (calls : List (Call L V)) :
    Hist (Spec.run ⟨n, []⟩ calls).1 (Spec.run ⟨n, []⟩ calls).2 ∧
    (Spec.run ⟨n, []⟩ calls).2.cap = n := by
  induction calls using snoc_induction with
  | nil => exact ⟨hist_nil n, rfl⟩
  | snoc calls cl ih =>
    rw [spec_run_snoc]
    exact ⟨ih.1.call (by omega) cl, by rw [spec_call_cap]; exact ih.2⟩

/-- The refinement invariant of a run together with its history: there is a recency list that
represents the cache and is explained by the trace. -/
theorem run_inv {n : Nat} (hn : 0 < n) (calls : List (Call L V)) :
    ∃ s : Spec L V, Rep (run (empty n) calls).2 s ∧ Hist (run (empty n) calls).1 s ∧ s.cap = n := by
  have h1 := run_refine hn calls
  have h2 := run_hist hn calls
  exact ⟨_, h1.2, by rw [h1.1]; exact h2.1, h2.2⟩

/-- Two lists without equivalent labels and with the same classes have the same image, up to order,
under every function that does not distinguish equivalent labels. -/
theorem perm_map_of_classes {α : Type w} (f : L → α)
    (hf : ∀ a b, Cmp.equiv a b = true → f a = f b) :
    ∀ {P Q : List L}, P.Pairwise (fun a b => Cmp.equiv a b = false) →
      Q.Pairwise (fun a b => Cmp.equiv a b = false) →
      (∀ x, (∃ p ∈ P, Cmp.equiv p x = true) ↔ (∃ q ∈ Q, Cmp.equiv q x = true)) →
      (P.map f).Perm (Q.map f) := by
  intro P
  induction P with
  | nil =>
    intro Q _ _ h
    cases Q with
    | nil => exact List.Perm.nil
    | cons q Q => obtain ⟨p, hp, _⟩ := (h q).2 ⟨q, by simp, by simp⟩; simp at hp
  | cons p P ih =>
    intro Q hP hQ h
    rw [List.pairwise_cons] at hP
    obtain ⟨q, hq, hqp⟩ := (h p).1 ⟨p, by simp, by simp⟩
    obtain ⟨A, B, rfl⟩ := List.append_of_mem hq
    have hQ' := List.pairwise_append.1 hQ
    have hAB : ∀ x ∈ A ++ B, Cmp.equiv x q = false := by
      intro x hx
      rcases List.mem_append.1 hx with hx | hx
      · exact hQ'.2.2 x hx q (by simp)
      · rw [Cmp.equiv_comm]; exact (List.pairwise_cons.1 hQ'.2.1).1 x hx
    have hsub : (A ++ B).Pairwise (fun a b => Cmp.equiv a b = false) :=
      hQ.sublist (List.Sublist.append_left (List.sublist_cons_self _ _) _)
    have key := ih hP.2 hsub (fun x => by
      constructor
      · rintro ⟨p', hp', hpx⟩
        obtain ⟨q', hq', hqx⟩ := (h x).1 ⟨p', List.mem_cons_of_mem _ hp', hpx⟩
        have hne : q' ≠ q := by
          rintro rfl
          have h1 : Cmp.equiv p p' = true :=
            Cmp.equiv_trans (Cmp.equiv_symm hqp) (Cmp.equiv_trans hqx (Cmp.equiv_symm hpx))
          rw [hP.1 p' hp'] at h1; simp at h1
        refine ⟨q', ?_, hqx⟩
        simp only [List.mem_append, List.mem_cons] at hq' ⊢
        rcases hq' with h | h | h
        · exact .inl h
        · exact absurd h hne
        · exact .inr h
      · rintro ⟨q', hq', hqx⟩
        obtain ⟨p', hp', hpx⟩ := (h x).2 ⟨q', by
          simp only [List.mem_append, List.mem_cons] at hq' ⊢
          rcases hq' with h | h
          · exact .inl h
          · exact .inr (.inr h), hqx⟩
        rcases List.mem_cons.1 hp' with rfl | hp'
        · have h1 : Cmp.equiv q' q = true :=
            Cmp.equiv_trans hqx (Cmp.equiv_trans (Cmp.equiv_symm hpx) (Cmp.equiv_symm hqp))
          rw [hAB q' hq'] at h1; simp at h1
        · exact ⟨p', hp', hpx⟩)
    rw [List.map_append, List.map_cons, List.map_cons, hf p q (Cmp.equiv_symm hqp)]
    rw [List.map_append] at key
    exact (key.cons _).trans List.perm_middle.symm

end Helper.LRU
