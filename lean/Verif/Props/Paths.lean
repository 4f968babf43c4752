import Verif.Model.MutationVisitor
import Verif.Spec.Events
import Verif.Proofs.Candidates

/-!
# C15: node paths
-/

namespace Mutagenyx
open Json

private def pathEntries (idOf : Json → Option Nat) (cur : List Nat) (j : Json) : List (Nat × List Nat) :=
  (positions j).filterMap (fun p => ((nodeAt p j).bind idOf).map (fun id => (id, cur ++ idsAlong idOf p j)))

private theorem entries_list (idOf : Json → Option Nat) (cur : List Nat) (j : Json) (xs : List Json) :
    ∀ (pre : List Json), j.children = pre ++ xs →
    (positionsList pre.length xs).filterMap
      (fun p => ((nodeAt p j).bind idOf).map (fun id => (id, cur ++ idsAlong idOf p j))) =
    xs.flatMap (pathEntries idOf (cur ++ (idOf j).toList)) := by
  induction xs with
  | nil => intro pre _; rfl
  | cons x xs ih =>
    intro pre h
    have h2 := ih (pre ++ [x]) (by simp [h])
    simp only [List.length_append, List.length_cons, List.length_nil, Nat.zero_add] at h2
    have hx : j.children[pre.length]? = some x := by rw [h]; simp
    simp only [positionsList, List.filterMap_append, h2, List.flatMap_cons, List.filterMap_map]
    congr 1
    unfold pathEntries
    congr 1
    funext p
    simp [Function.comp, nodeAt, hx, idsAlong]

private theorem entries_eq (idOf : Json → Option Nat) (cur : List Nat) (j : Json) :
    pathEntries idOf cur j = ((idOf j).map (fun id => (id, cur ++ [id]))).toList ++
      j.children.flatMap (pathEntries idOf (cur ++ (idOf j).toList)) := by
  have := entries_list idOf cur j j.children [] rfl
  simp only [List.length_nil] at this
  rw [← this, pathEntries, positions_eq]
  cases h : idOf j <;> simp [nodeAt, h, idsAlong]

private def insertAll (m : PathMap) (es : List (Nat × List Nat)) : PathMap :=
  es.foldl (fun m e => m.insert e.1 e.2) m

private theorem path_traverse (cx : LangCtx) (ps : Permissions) (hv : ∀ j, permittedToVisit cx ps j = true)
    (j : Json) : ∀ s : PathState, traverse (pathVisitor cx ps) j s =
      (false, { pathMap := insertAll s.pathMap (pathEntries cx.idOf s.currentPath j),
                currentPath := s.currentPath }) := by
  induction j using induct with
  | h j ih =>
    intro s
    have hl : ∀ (xs : List Json), (∀ c ∈ xs, ∀ s : PathState, traverse (pathVisitor cx ps) c s =
      (false, { pathMap := insertAll s.pathMap (pathEntries cx.idOf s.currentPath c),
                currentPath := s.currentPath })) → ∀ s : PathState,
        traverseList (pathVisitor cx ps) xs s =
        (false, { pathMap := insertAll s.pathMap (xs.flatMap (pathEntries cx.idOf s.currentPath)),
                  currentPath := s.currentPath }) := by
      intro xs
      induction xs with
      | nil => intro _ s; rfl
      | cons x xs ihx =>
        intro h s
        simp only [traverseList, h x (by simp) s]
        rw [ihx (fun c hc => h c (by simp [hc]))]
        simp [insertAll, List.foldl_append]
    rw [traverse_eq, entries_eq]
    cases hid : cx.idOf j with
    | none =>
      simp only [pathVisitor, hv, hid, if_true, Bool.false_eq_true, if_false]
      have := hl j.children ih s
      simp only [pathVisitor, hv] at this
      simp [this]
    | some id =>
      simp only [pathVisitor, hv, hid, if_true, Bool.false_eq_true, if_false]
      have := hl j.children ih
        { pathMap := s.pathMap.insert id (s.currentPath ++ [id]), currentPath := s.currentPath ++ [id] }
      simp only [pathVisitor, hv] at this
      simp [this, insertAll]

private theorem get?_insert (k l : Nat) (v : List Nat) (m : PathMap) :
    (m.insert k v).get? l = if k = l then some v else m.get? l := by
  induction m with
  | nil => simp [PathMap.insert, PathMap.get?]
  | cons e m ih =>
    obtain ⟨a, w⟩ := e
    simp only [PathMap.insert]
    split
    · rename_i h; subst h; simp [PathMap.get?]; split <;> rfl
    · rename_i h
      simp only [PathMap.get?, ih]
      by_cases h1 : a = l
      · subst h1
        have : ¬ k = a := fun e => h e.symm
        simp [this]
      · simp [h1]

private theorem get?_insertAll (l : Nat) (es : List (Nat × List Nat)) : ∀ m : PathMap,
    (insertAll m es).get? l = match (es.filter (fun e => e.1 == l)).getLast? with
      | some e => some e.2
      | none => m.get? l := by
  induction es with
  | nil => intro m; rfl
  | cons e es ih =>
    intro m
    have : insertAll m (e :: es) = insertAll (m.insert e.1 e.2) es := rfl
    rw [this, ih, get?_insert]
    by_cases h : e.1 = l
    · rw [List.filter_cons_of_pos (by simpa using h), List.getLast?_cons, if_pos h]
      cases (es.filter (fun e => e.1 == l)).getLast? <;> simp
    · rw [List.filter_cons_of_neg (by simpa using h), if_neg h]

/-- The positions, in document order, of the nodes with a given id. -/
def positionsWithId (idOf : Json → Option Nat) (id : Nat) (j : Json) : List Pos :=
  (positions j).filter (fun p => (nodeAt p j).bind idOf == some id)

private theorem filter_entries (idOf : Json → Option Nat) (cur : List Nat) (j : Json) (id : Nat) :
    (pathEntries idOf cur j).filter (fun e => e.1 == id) =
      (positionsWithId idOf id j).map (fun p => (id, cur ++ idsAlong idOf p j)) := by
  unfold pathEntries positionsWithId
  induction positions j with
  | nil => rfl
  | cons p ps ih =>
    cases h : (nodeAt p j).bind idOf with
    | none =>
      rw [List.filterMap_cons_none (by simp [h]), ih, List.filter_cons_of_neg (by simp [h])]
    | some i =>
      rw [List.filterMap_cons_some (b := (i, cur ++ idsAlong idOf p j)) (by simp [h])]
      by_cases hi : i = id
      · subst hi
        rw [List.filter_cons_of_pos (by simp), ih, List.filter_cons_of_pos (by simp [h])]
        rfl
      · rw [List.filter_cons_of_neg (by simpa using hi), ih, List.filter_cons_of_neg (by simpa [h] using hi)]

/-- **C15.** Whatever functions are selected, the path recorded for an id is the list of ids met on the
way from the root to the last node in document order with that id, the node itself included; ids that do
not occur have no path. -/
theorem C15_paths (cx : LangCtx) (names : List String) (ast : Json) (id : Nat) :
    (calculateNodePaths cx (functionPermissions names) ast).get? id =
      (positionsWithId cx.idOf id ast).getLast?.map (fun p => idsAlong cx.idOf p ast) := by
  unfold calculateNodePaths
  rw [path_traverse cx _ (visit_ok cx names)]
  simp only [get?_insertAll, filter_entries, List.getLast?_map]
  cases (positionsWithId cx.idOf id ast).getLast? <;> simp [PathMap.get?]

/-- **C15**: a node whose id is unique in the tree gets exactly its own ancestors' ids as its path. -/
theorem C15_unique (cx : LangCtx) (names : List String) (ast : Json) (p : Pos) (n : Json) (id : Nat)
    (hn : nodeAt p ast = some n) (hid : cx.idOf n = some id)
    (huniq : ∀ q m, nodeAt q ast = some m → cx.idOf m = some id → q = p) :
    (calculateNodePaths cx (functionPermissions names) ast).get? id = some (idsAlong cx.idOf p ast) := by
  rw [C15_paths]
  have hm : p ∈ positionsWithId cx.idOf id ast := by
    unfold positionsWithId
    rw [List.mem_filter]
    exact ⟨mem_positions.2 (by rw [hn]; rfl), by simp [hn, hid]⟩
  cases hl : (positionsWithId cx.idOf id ast).getLast? with
  | none => rw [List.getLast?_eq_none_iff] at hl; rw [hl] at hm; cases hm
  | some q =>
    have hq := List.mem_of_getLast? hl
    unfold positionsWithId at hq
    rw [List.mem_filter] at hq
    obtain ⟨-, hq⟩ := hq
    cases hnq : nodeAt q ast with
    | none => simp [hnq] at hq
    | some m =>
      have : q = p := huniq q m hnq (by simpa [hnq] using hq)
      simp [this]

/-- **C15**: exactly the ids that occur in the tree have a path. -/
theorem C15_has_path_iff (cx : LangCtx) (names : List String) (ast : Json) (id : Nat) :
    ((calculateNodePaths cx (functionPermissions names) ast).get? id).isSome ↔
      ∃ n ∈ preorder ast, cx.idOf n = some id := by
  rw [C15_paths, Option.isSome_map, List.getLast?_isSome]
  constructor
  · intro h
    obtain ⟨p, hp⟩ := List.exists_mem_of_ne_nil _ h
    unfold positionsWithId at hp
    rw [List.mem_filter] at hp
    obtain ⟨h1, h2⟩ := hp
    cases hn : nodeAt p ast with
    | none => simp [hn] at h2
    | some n =>
      refine ⟨n, ?_, by simpa [hn] using h2⟩
      have h3 : some n ∈ (positions ast).map (fun p => nodeAt p ast) := List.mem_map.2 ⟨p, h1, hn⟩
      rw [positions_map_nodeAt] at h3
      obtain ⟨m, hm, he⟩ := List.mem_map.1 h3
      cases he; exact hm
  · rintro ⟨n, hn, hid⟩ hnil
    have h3 : some n ∈ (preorder ast).map some := List.mem_map.2 ⟨n, hn, rfl⟩
    rw [← positions_map_nodeAt] at h3
    obtain ⟨p, hp, he⟩ := List.mem_map.1 h3
    have : p ∈ positionsWithId cx.idOf id ast := by
      unfold positionsWithId
      rw [List.mem_filter]
      exact ⟨hp, by simp [he, hid]⟩
    rw [hnil] at this; cases this

/-- **C15**: paths are linked: the path of a node with an id ends with that id. -/
theorem C15_ends_with_self (cx : LangCtx) (names : List String) (ast : Json) (id : Nat) (path : List Nat)
    (h : (calculateNodePaths cx (functionPermissions names) ast).get? id = some path) :
    path.getLast? = some id := by
  rw [C15_paths] at h
  cases hl : (positionsWithId cx.idOf id ast).getLast? with
  | none => simp [hl] at h
  | some p =>
    simp only [hl, Option.map_some, Option.some.injEq] at h
    subst h
    have hq := List.mem_of_getLast? hl
    unfold positionsWithId at hq
    rw [List.mem_filter] at hq
    have h2 := hq.2
    simp only [beq_iff_eq] at h2
    clear hq hl
    induction p generalizing ast with
    | nil =>
      simp only [nodeAt, Option.bind_some] at h2
      simp [idsAlong, h2]
    | cons i p ih =>
      simp only [nodeAt] at h2
      simp only [idsAlong]
      cases hc : ast.children[i]? with
      | none => simp [hc] at h2
      | some c =>
        simp only [hc] at h2
        have := ih c h2
        simp [List.getLast?_append, this]

/-- A Solidity-like tree: the path of the innermost node passes over nodes without id. -/
example :
    let leaf : Json := .obj [("id", .num (.int 3))]
    let ast : Json := .obj [("body", .arr [.obj [("id", .num (.int 2)), ("x", leaf)]]), ("id", .num (.int 1))]
    (calculateNodePaths solidityCtx (functionPermissions ["f"]) ast).get? 3 = some [1, 2, 3] := by
  decide

end Mutagenyx
