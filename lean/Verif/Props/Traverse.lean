import Verif.Spec.Events
import Verif.Proofs.TraverseInv

/-!
# C14: traversal order and callbacks
-/

namespace Mutagenyx
open Json

variable {S : Type}

private theorem logged_list (v : Visitor S) (xs : List Json)
    (ih : ∀ c ∈ xs, ∀ s log, ∃ evs, traverse (logged v) c (s, log) =
      ((traverse v c s).1, (traverse v c s).2, log ++ evs) ∧ Log c evs (traverse v c s).1) :
    ∀ s log, ∃ evs, traverseList (logged v) xs (s, log) =
      ((traverseList v xs s).1, (traverseList v xs s).2, log ++ evs) ∧
      LogList xs evs (traverseList v xs s).1 := by
  induction xs with
  | nil => intro s log; exact ⟨[], by simp [traverseList], LogList.nil⟩
  | cons x xs ihx =>
    intro s log
    obtain ⟨evs, h1, h2⟩ := ih x (by simp) s log
    simp only [traverseList]
    rw [h1]
    by_cases hstop : (traverse v x s).1
    · rw [hstop] at h2
      refine ⟨evs, ?_, ?_⟩
      · simp [hstop]
      · simp only [hstop, if_true]; exact LogList.stop x xs evs h2
    · simp only [hstop]
      obtain ⟨evs', h3, h4⟩ := ihx (fun c hc => ih c (by simp [hc])) (traverse v x s).2 (log ++ evs)
      refine ⟨evs ++ evs', ?_, ?_⟩
      · simp [h3]
      · have hs : (traverse v x s).1 = false := by simpa using hstop
        rw [hs] at h2
        exact LogList.cons x xs evs evs' _ h2 h4

/-- **C14.** Logging does not disturb a traversal, and the log of every traversal, for every tree and
every visitor, follows the grammar `Log`: callbacks are properly nested around each node and around its
children, children come in order, and after a visit that asks to stop nothing is visited but everything
opened is closed. -/
theorem C14_callbacks (v : Visitor S) (j : Json) : ∀ (s : S) (log : List Event),
    ∃ evs, traverse (logged v) j (s, log) = ((traverse v j s).1, (traverse v j s).2, log ++ evs) ∧
      Log j evs (traverse v j s).1 := by
  induction j using induct with
  | h j ih =>
    intro s log
    rw [traverse_eq, traverse_eq]
    simp only [logged]
    by_cases hp : v.havePermission j (v.onEnter j s)
    · simp only [hp, if_true]
      by_cases hs : (v.visit j (v.onEnter j s)).1
      · simp only [hs, if_true]
        exact ⟨_, by simp, Log.stop j⟩
      · simp only [hs]
        by_cases hc : v.visitChildren j (v.visit j (v.onEnter j s)).2
        · simp only [hc, if_true]
          obtain ⟨evs, h1, h2⟩ := logged_list v j.children ih
            (v.onStart j (v.visit j (v.onEnter j s)).2)
            (log ++ [.enter j] ++ [.visit j] ++ [.startChildren j])
          simp only [logged] at h1
          simp only [Bool.false_eq_true, if_false, h1]
          exact ⟨_, by simp, Log.children j evs _ h2⟩
        · simp only [hc]
          exact ⟨_, by simp, Log.noChildren j⟩
    · simp only [hp]
      exact ⟨_, by simp, Log.noPermission j⟩

/-- **C14**: a visitor that always permits, never stops and never prunes is shown every node of the tree
exactly once, in document order. -/
theorem C14_preorder (v : Visitor S) (hp : ∀ j s, v.havePermission j s = true)
    (hs : ∀ j s, (v.visit j s).1 = false) (hc : ∀ j s, v.visitChildren j s = true) (j : Json) :
    ∀ (s : S) (log : List Event), (traverse v j s).1 = false ∧
      visited (traverse (logged v) j (s, log)).2.2 = visited log ++ preorder j := by
  have vapp : ∀ a b, visited (a ++ b) = visited a ++ visited b := by
    intro a b; simp [visited]
  induction j using induct with
  | h j ih =>
    intro s log
    have hl : ∀ (xs : List Json), (∀ c ∈ xs, ∀ (s : S) (log : List Event), (traverse v c s).1 = false ∧
        visited (traverse (logged v) c (s, log)).2.2 = visited log ++ preorder c) →
        ∀ (s : S) (log : List Event), (traverseList v xs s).1 = false ∧
        visited (traverseList (logged v) xs (s, log)).2.2 = visited log ++ preorderList xs := by
      intro xs
      induction xs with
      | nil => intro _ s log; simp [traverseList, preorderList]
      | cons x xs ihx =>
        intro hx s log
        obtain ⟨h1, h2⟩ := hx x (by simp) s log
        obtain ⟨evs, h3, -⟩ := C14_callbacks v x s log
        simp only [traverseList, h3, h1, preorderList]
        obtain ⟨h4, h5⟩ := ihx (fun c hc => hx c (by simp [hc])) (traverse v x s).2 (log ++ evs)
        refine ⟨by simpa using h4, ?_⟩
        simp only [Bool.false_eq_true, if_false]
        rw [h5]
        rw [h3] at h2
        simp only at h2
        rw [h2, List.append_assoc]
    rw [traverse_eq, traverse_eq, preorder_eq]
    obtain ⟨h1, h2⟩ := hl j.children ih (v.onStart j (v.visit j (v.onEnter j s)).2)
      (log ++ [.enter j] ++ [.visit j] ++ [.startChildren j])
    have e1 : (logged v).havePermission j ((logged v).onEnter j (s, log)) = true := hp _ _
    have e2 : ((logged v).visit j ((logged v).onEnter j (s, log))).1 = false := hs _ _
    have e3 : (logged v).visitChildren j ((logged v).visit j ((logged v).onEnter j (s, log))).2 = true :=
      hc _ _
    simp only [hp, hs, hc, e1, e2, e3, if_true, Bool.false_eq_true, if_false]
    refine ⟨h1, ?_⟩
    have e4 : (logged v).onStart j ((logged v).visit j ((logged v).onEnter j (s, log))).2 =
      (v.onStart j (v.visit j (v.onEnter j s)).2,
        log ++ [.enter j] ++ [.visit j] ++ [.startChildren j]) := rfl
    rw [e4]
    have e5 : ∀ st : S × List Event, visited ((logged v).onExit j ((logged v).onEnd j st)).2 = visited st.2 := by
      intro st; simp [logged, visited]
    rw [e5, h2]
    simp [visited]

mutual
private theorem visited_sublist : ∀ {j evs b}, Log j evs b → (visited evs).Sublist (preorder j)
  | j, _, _, .noPermission _ => by simp [visited]
  | j, _, _, .stop _ => by rw [preorder_eq]; simp [visited]
  | j, _, _, .noChildren _ => by rw [preorder_eq]; simp [visited]
  | j, _, _, .children _ evs _ h => by
      have := visitedList_sublist h
      rw [preorder_eq]
      simpa [visited] using this
private theorem visitedList_sublist : ∀ {xs evs b}, LogList xs evs b →
    (visited evs).Sublist (preorderList xs)
  | _, _, _, .nil => by simp [visited, preorderList]
  | _, _, _, .stop x xs evs h => by
      simp only [preorderList]
      exact (visited_sublist h).trans (List.sublist_append_left _ _)
  | _, _, _, .cons x xs evs evs' _ h h' => by
      have h1 := visited_sublist h
      have h2 := visitedList_sublist h'
      simp only [preorderList, visited, List.filterMap_append]
      exact h1.append h2
end

/-- **C14**: with any visitor, the visited nodes are some of the nodes of the tree, each at most once and
in document order. -/
theorem C14_visits_in_order {j : Json} {evs : List Event} {stopped : Bool} (h : Log j evs stopped) :
    (visited evs).Sublist (preorder j) := visited_sublist h

mutual
private theorem balanced_log : ∀ {j evs b}, Log j evs b → ∀ es stack,
    balanced (evs ++ es) stack = balanced es stack
  | j, _, _, .noPermission _ => by intro es stack; simp [balanced]
  | j, _, _, .stop _ => by intro es stack; simp [balanced]
  | j, _, _, .noChildren _ => by intro es stack; simp [balanced]
  | j, _, _, .children _ evs _ h => by
      intro es stack
      simp only [List.append_assoc, List.cons_append, List.nil_append, balanced, decide_true, Bool.true_and]
      rw [balanced_logList h]
      simp [balanced]
private theorem balanced_logList : ∀ {xs evs b}, LogList xs evs b → ∀ es stack,
    balanced (evs ++ es) stack = balanced es stack
  | _, _, _, .nil => by intro es stack; simp
  | _, _, _, .stop x xs evs h => by intro es stack; exact balanced_log h es stack
  | _, _, _, .cons x xs evs evs' _ h h' => by
      intro es stack
      rw [List.append_assoc, balanced_log h, balanced_logList h']
end

/-- **C14**: callbacks are balanced, also when the traversal stopped early. -/
theorem C14_balanced {j : Json} {evs : List Event} {stopped : Bool} (h : Log j evs stopped) :
    balanced evs [] = true := by
  have := balanced_log h [] []
  simpa [balanced] using this

private theorem visited_append (a b : List Event) : visited (a ++ b) = visited a ++ visited b := by
  simp [visited]

/-- **C14**: a visit that asks to stop is the last one. -/
theorem C14_stop_is_last (v : Visitor S) (P : Json → Bool) (hv : ∀ j s, (v.visit j s).1 = P j) (j : Json)
    (s : S) : ∃ evs, (traverse (logged v) j (s, [])).2.2 = evs ∧
      (∀ pre n post, visited evs = pre ++ n :: post → P n = true → post = []) ∧
      ((traverse v j s).1 = true ↔ ∃ pre n, visited evs = pre ++ [n] ∧ P n = true) := by
  suffices H : ∀ (s : S) (log : List Event), ∃ evs,
      (traverse (logged v) j (s, log)) = ((traverse v j s).1, (traverse v j s).2, log ++ evs) ∧
      (if (traverse v j s).1 then ∃ pre n, visited evs = pre ++ [n] ∧ P n = true ∧ ∀ m ∈ pre, P m = false
       else ∀ m ∈ visited evs, P m = false) by
    obtain ⟨evs, h1, h2⟩ := H s []
    refine ⟨evs, by rw [h1]; simp, ?_, ?_⟩
    · intro pre n post heq hn
      split at h2
      · obtain ⟨pre', n', he, hn', hpre⟩ := h2
        rw [he] at heq
        rcases List.append_eq_append_iff.1 heq with ⟨as, h, h'⟩ | ⟨bs, h, h'⟩
        · cases as with
          | nil => simp at h'; exact h'.2
          | cons a as => simp at h'
        · cases bs with
          | nil => simp at h'; exact h'.2
          | cons b bs =>
            simp only [List.cons_append, List.cons.injEq] at h'
            have : P b = false := hpre b (by rw [h]; simp)
            rw [← h'.1, hn] at this; cases this
      · have := h2 n (by rw [heq]; simp)
        rw [hn] at this; cases this
    · constructor
      · intro h
        rw [if_pos h] at h2
        obtain ⟨pre, n, he, hn, -⟩ := h2
        exact ⟨pre, n, he, hn⟩
      · rintro ⟨pre, n, he, hn⟩
        by_cases h : (traverse v j s).1 = true
        · exact h
        · rw [if_neg h] at h2
          have := h2 n (by rw [he]; simp)
          rw [hn] at this; cases this
  induction j using induct with
  | h j ih =>
    intro s log
    have hl : ∀ (xs : List Json), (∀ c ∈ xs, ∀ (s : S) (log : List Event), ∃ evs,
        (traverse (logged v) c (s, log)) = ((traverse v c s).1, (traverse v c s).2, log ++ evs) ∧
        (if (traverse v c s).1 then ∃ pre n, visited evs = pre ++ [n] ∧ P n = true ∧ ∀ m ∈ pre, P m = false
         else ∀ m ∈ visited evs, P m = false)) →
        ∀ (s : S) (log : List Event), ∃ evs,
        (traverseList (logged v) xs (s, log)) =
          ((traverseList v xs s).1, (traverseList v xs s).2, log ++ evs) ∧
        (if (traverseList v xs s).1 then ∃ pre n, visited evs = pre ++ [n] ∧ P n = true ∧ ∀ m ∈ pre, P m = false
         else ∀ m ∈ visited evs, P m = false) := by
      intro xs
      induction xs with
      | nil => intro _ s log; exact ⟨[], by simp [traverseList], by simp [traverseList, visited]⟩
      | cons x xs ihx =>
        intro hx s log
        obtain ⟨evs, h1, h2⟩ := hx x (by simp) s log
        simp only [traverseList]
        rw [h1]
        by_cases hstop : (traverse v x s).1 = true
        · rw [if_pos hstop] at h2
          simp only [hstop, if_true]
          exact ⟨evs, rfl, h2⟩
        · rw [if_neg hstop] at h2
          simp only [hstop]
          obtain ⟨evs', h3, h4⟩ := ihx (fun c hc => hx c (by simp [hc])) (traverse v x s).2 (log ++ evs)
          refine ⟨evs ++ evs', by simp [h3], ?_⟩
          simp only [Bool.false_eq_true, if_false]
          split
          · rename_i hs
            rw [if_pos hs] at h4
            obtain ⟨pre, n, he, hn, hpre⟩ := h4
            refine ⟨visited evs ++ pre, n, by rw [visited_append, he, List.append_assoc], hn, ?_⟩
            intro m hm
            rcases List.mem_append.1 hm with hm | hm
            · exact h2 m hm
            · exact hpre m hm
          · rename_i hs
            rw [if_neg hs] at h4
            intro m hm
            rw [visited_append] at hm
            rcases List.mem_append.1 hm with hm | hm
            · exact h2 m hm
            · exact h4 m hm
    rw [traverse_eq, traverse_eq]
    simp only [logged]
    by_cases hp : v.havePermission j (v.onEnter j s)
    · simp only [hp, if_true]
      have hP := hv j (v.onEnter j s)
      by_cases hs : (v.visit j (v.onEnter j s)).1
      · simp only [hs, if_true]
        rw [hs] at hP
        exact ⟨[.enter j, .visit j, .exit j], by simp, [], j, by simp [visited], hP.symm, by simp⟩
      · simp only [hs]
        have hP' : P j = false := by rw [← hP]; simpa using hs
        by_cases hc : v.visitChildren j (v.visit j (v.onEnter j s)).2
        · simp only [hc, if_true, Bool.false_eq_true, if_false]
          obtain ⟨evs, h1, h2⟩ := hl j.children ih
            (v.onStart j (v.visit j (v.onEnter j s)).2)
            (log ++ [.enter j] ++ [.visit j] ++ [.startChildren j])
          simp only [logged] at h1
          rw [h1]
          refine ⟨[.enter j, .visit j, .startChildren j] ++ evs ++ [.endChildren j, .exit j], by simp, ?_⟩
          have hvis : visited ([.enter j, .visit j, .startChildren j] ++ evs ++ [.endChildren j, .exit j]) =
              j :: visited evs := by simp [visited]
          rw [hvis]
          split
          · rename_i hst
            rw [if_pos hst] at h2
            obtain ⟨pre, n, he, hn, hpre⟩ := h2
            refine ⟨j :: pre, n, by rw [he]; rfl, hn, ?_⟩
            intro m hm
            rcases List.mem_cons.1 hm with rfl | hm
            · exact hP'
            · exact hpre m hm
          · rename_i hst
            rw [if_neg hst] at h2
            intro m hm
            rcases List.mem_cons.1 hm with rfl | hm
            · exact hP'
            · exact h2 m hm
        · simp only [hc]
          refine ⟨[.enter j, .visit j, .exit j], by simp, ?_⟩
          simp [visited, hP']
    · simp only [hp]
      exact ⟨[.enter j, .exit j], by simp, by simp [visited]⟩

/-- A tree with a visitor that stops at the string "b". -/
example :
    let v : Visitor Nat := { visit := fun j n => (j == .str "b", n + 1) }
    let j : Json := .arr [.str "a", .obj [("x", .str "b"), ("y", .null)], .str "c"]
    (traverse v j 0) = (true, 4) ∧
      visited (traverse (logged v) j (0, [])).2.2 = [j, .str "a", .obj [("x", .str "b"), ("y", .null)], .str "b"] := by
  decide

end Mutagenyx
