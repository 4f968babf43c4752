import Verif.Proofs.Comments
import Verif.Spec.DemoNodes

/-!
# C16: inserting the comment changes nothing else
-/

namespace Mutagenyx
open Json

/-- All blocks have a list of statements. -/
def BlocksHaveStatements (j : Json) : Prop :=
  ∀ p n, nodeAt p j = some n → getStrForKey "nodeType" n = some "Block" → ∃ xs, field "statements" n = some (.arr xs)

theorem insertFirst_spec (id : Nat) (c : Json) {body : Json} (ht : getStrForKey "nodeType" body = some "Block")
    (hid : solidityId body = some id) :
    Solidity.insertFirst c body = body ∧ (∀ xs, field "statements" body ≠ some (.arr xs)) ∨
    CommentAdded .solidity id c body (Solidity.insertFirst c body) := by
  have hk : PlainKey "statements" := by decide
  unfold Solidity.insertFirst getArrayForKey
  cases hg : get? "statements" body with
  | none =>
    refine Or.inl ⟨rfl, fun xs hx => ?_⟩
    cases body with
    | obj kvs => rw [get?_obj hk] at hg; rw [field, hg] at hx; cases hx
    | _ => cases hx
  | some v =>
    obtain ⟨kvs, rfl⟩ := isObj_iff.1 (isObj_of_get? hk (by decide) hg)
    have hget : objGet "statements" kvs = some v := by rw [← get?_obj hk]; exact hg
    cases v with
    | arr xs =>
      right
      obtain ⟨i, h1, h2, h3, h4⟩ := children_of_field hget
      have : (pointerSet (jsonPath "statements") (.arr (c :: xs)) (.obj kvs)).getD (.obj kvs) =
          replaceAt ([] ++ [i]) (.arr (c :: xs)) (.obj kvs) := by
        rw [pointerSet_plain hk, hg, List.nil_append, h2]; rfl
      simp only [Option.bind_some, asArray]
      rw [this]
      exact .atTop [] i _ xs rfl rfl hid ⟨kvs, "Block", "statements", rfl, ht, by decide, h3, h4⟩ h1
    | _ => exact Or.inl ⟨rfl, fun xs hx => by rw [field, hget] at hx; cases hx⟩

/-- Inserting below a key: nothing happens, or the comment is added. -/
theorem insertInBody_spec {key : String} (hk : PlainKey key) (id : Nat) (c : Json)
    (kvs : List (String × Json)) {u : String} (hu : getStrForKey "nodeType" (.obj kvs) = some u)
    (huk : (u, key) ∈ statementFields)
    (hkey : key = "body" ∨ ∀ b, field key (.obj kvs) = some b → getStrForKey "nodeType" b = some "Block" →
      solidityId b ≠ some id) :
    (Solidity.foundInBody key id (.obj kvs) = false ∧
      Solidity.insertInBody key id c (.obj kvs) = (.obj kvs, false)) ∨
    (Solidity.foundInBody key id (.obj kvs) = true ∧ ∃ j', Solidity.insertInBody key id c (.obj kvs) = (j', true) ∧
      (CommentAdded .solidity id c (.obj kvs) j' ∨ j' = .obj kvs ∧ ¬ BlocksHaveStatements (.obj kvs))) := by
  unfold Solidity.foundInBody Solidity.insertInBody
  cases hget : objGet key kvs with
  | none =>
    rw [show field? key (.obj kvs) = none from hget]
    have : takeValueForKey key (.obj kvs) = (none, .obj kvs) := by
      unfold takeValueForKey; rw [get?_obj hk, hget]
    rw [this]
    exact Or.inl ⟨rfl, rfl⟩
  | some body =>
    rw [show field? key (.obj kvs) = some body from hget]
    have hset := fun w => (set_after_take hk hget w).2
    rw [(set_after_take hk hget body).1]
    obtain ⟨i, h1, h2, h3, h4⟩ := children_of_field hget
    have hback : Json.obj (objReplace key body kvs) = .obj kvs := by rw [← h2, replaceAt_self h1]
    simp only
    cases ht : getStrForKey "nodeType" body with
    | none => exact Or.inl ⟨rfl, by simp only [hset, hback]⟩
    | some t =>
      simp only
      by_cases hb : t = "Block"
      · subst hb
        simp only [if_true]
        by_cases hid : solidityId body = some id
        · right
          have hkb : key = "body" := by
            rcases hkey with h | h
            · exact h
            · exact absurd hid (h body hget ht)
          subst hkb
          rw [if_pos hid, if_pos hid, hset]
          refine ⟨rfl, _, rfl, ?_⟩
          rcases insertFirst_spec id c ht hid with ⟨he, hno⟩ | h
          · right
            rw [he, hback]
            refine ⟨rfl, fun hall => ?_⟩
            obtain ⟨xs, hx⟩ := hall [i] body h1 ht
            exact hno xs hx
          · left
            rw [← h2]
            exact h.lift h1
        · rw [if_neg hid, if_neg hid]
          rcases insertInKey_spec (key := "statements") (by decide) (by decide) .solidity (idOf := solidityId) rfl id c body ht (by decide) with
            ⟨hf, hi⟩ | ⟨hf, j', hi, hadd⟩
          · exact Or.inl ⟨hf, by rw [hi]; simp only [hset, hback]⟩
          · refine Or.inr ⟨hf, _, by rw [hi], ?_⟩
            simp only [hset]
            left
            rw [← h2]
            exact hadd.lift h1
      · simp only [hb, if_false]
        by_cases hc : (getNodeWithId solidityId id body).isSome = true
        · right
          rw [if_pos hc, hset]
          refine ⟨hc, _, rfl, Or.inl ?_⟩
          rw [← h2]
          exact .inBlock [] i _ body t rfl rfl ⟨kvs, u, key, rfl, hu, huk, h3, h4⟩ h1 ht hb (containsId_iff.1 hc)
        · left
          rw [if_neg hc, hset, hback]
          exact ⟨by simpa using hc, rfl⟩

theorem solidity_insert_spec (id : Nat) (c : Json) {n : Json} (hb : ¬ BranchBlock id n)
    (hm : Solidity.isMember id n = true) :
    CommentAdded .solidity id c n (Solidity.insertComment id c n) ∨
      Solidity.insertComment id c n = n ∧ ¬ BlocksHaveStatements n := by
  unfold Solidity.isMember at hm
  unfold Solidity.insertComment
  cases ht : getStrForKey "nodeType" n with
  | none => rw [ht] at hm; cases hm
  | some t =>
    rw [ht] at hm
    simp only at hm ⊢
    have hobj : ∃ kvs, n = .obj kvs := by
      unfold getStrForKey at ht
      cases hg : get? "nodeType" n with
      | none => rw [hg] at ht; cases ht
      | some v => exact isObj_iff.1 (isObj_of_get? (by decide) (by decide) hg)
    obtain ⟨kvs, rfl⟩ := hobj
    have hkey : ∀ key, foundInKey solidityId key id (.obj kvs) = true → PlainKey key → parseIndex key = none →
        (t, key) ∈ statementLists .solidity →
        CommentAdded .solidity id c (.obj kvs) (insertInKey solidityId key id c (.obj kvs)).1 := by
      intro key hf hp hi hl
      rcases insertInKey_spec hp hi .solidity (idOf := solidityId) rfl id c (.obj kvs) ht hl with ⟨hf', _⟩ | ⟨_, j', he, hadd⟩
      · rw [hf] at hf'; cases hf'
      · rw [he]; exact hadd
    have hnot : ∀ key ∈ ["trueBody", "falseBody", "block"], ∀ b, field key (.obj kvs) = some b →
        getStrForKey "nodeType" b = some "Block" → solidityId b ≠ some id :=
      fun key hk b hf hn hid => hb ⟨key, hk, b, hf, hn, hid⟩
    have hbody : (t, "body") ∈ statementFields → Solidity.foundInBody "body" id (.obj kvs) = true →
        CommentAdded .solidity id c (.obj kvs) (Solidity.insertInBody "body" id c (.obj kvs)).1 ∨
        (Solidity.insertInBody "body" id c (.obj kvs)).1 = .obj kvs ∧ ¬ BlocksHaveStatements (.obj kvs) := by
      intro hl hf
      rcases insertInBody_spec (by decide) id c kvs ht hl (Or.inl rfl) with ⟨hf', _⟩ | ⟨_, j', he, hadd⟩
      · rw [hf] at hf'; cases hf'
      · rw [he]; exact hadd
    by_cases h1 : t = "Block"
    · simp only [h1, if_true] at hm ⊢
      exact Or.inl (hkey _ hm (by decide) (by decide) (by subst_vars; decide))
    simp only [h1, if_false] at hm ⊢
    by_cases h2 : t = "ContractDefinition"
    · simp only [h2, if_true] at hm ⊢
      exact Or.inl (hkey _ hm (by decide) (by decide) (by subst_vars; decide))
    simp only [h2, if_false] at hm ⊢
    by_cases h3 : t = "DoWhileStatement"
    · simp only [h3, if_true] at hm ⊢; exact hbody (by subst_vars; decide) hm
    simp only [h3, if_false] at hm ⊢
    by_cases h4 : t = "ForStatement"
    · simp only [h4, if_true] at hm ⊢; exact hbody (by subst_vars; decide) hm
    simp only [h4, if_false] at hm ⊢
    by_cases h5 : t = "FunctionDefinition"
    · simp only [h5, if_true] at hm ⊢; exact hbody (by subst_vars; decide) hm
    simp only [h5, if_false] at hm ⊢
    by_cases h6 : t = "IfStatement"
    · simp only [h6, if_true] at hm ⊢
      unfold Solidity.insertInIf
      rcases insertInBody_spec (key := "trueBody") (by decide) id c kvs ht (by subst_vars; decide) (Or.inr (hnot _ (by simp))) with
        ⟨hf, he⟩ | ⟨hf, j', he, hadd⟩
      · rw [hf, Bool.false_or] at hm
        rw [he]
        simp only [Bool.false_eq_true, if_false]
        rcases insertInBody_spec (key := "falseBody") (by decide) id c kvs ht (by subst_vars; decide) (Or.inr (hnot _ (by simp))) with
          ⟨hf', _⟩ | ⟨_, j', he', hadd⟩
        · rw [hm] at hf'; cases hf'
        · rw [he']; exact hadd
      · rw [he]; exact hadd
    simp only [h6, if_false] at hm ⊢
    by_cases h7 : t = "ModifierDefinition"
    · simp only [h7, if_true] at hm ⊢; exact hbody (by subst_vars; decide) hm
    simp only [h7, if_false] at hm ⊢
    by_cases h8 : t = "TryCatchClause"
    · simp only [h8, if_true] at hm ⊢
      rcases insertInBody_spec (key := "block") (by decide) id c kvs ht (by subst_vars; decide) (Or.inr (hnot _ (by simp))) with
        ⟨hf', _⟩ | ⟨_, j', he', hadd⟩
      · rw [hm] at hf'; cases hf'
      · rw [he']; exact hadd
    simp only [h8, if_false] at hm ⊢
    by_cases h9 : t = "UncheckedBlock"
    · simp only [h9, if_true] at hm ⊢
      exact Or.inl (hkey _ hm (by decide) (by decide) (by subst_vars; decide))
    simp only [h9, if_false] at hm ⊢
    by_cases h10 : t = "WhileStatement"
    · simp only [h10, if_true] at hm ⊢; exact hbody (by subst_vars; decide) hm
    simp only [h10, if_false] at hm
    cases hm

/-- **C16**, Solidity: inserting the comment for the mutated node (the last id of the path) leaves the tree
alone or adds the comment at one place beside or around the mutated node.  Missing: the mutated node is the
block of a branch or of a catch clause, where the claim fails (`C16_solidity_counterexample`). -/
theorem C16_solidity_only_adds_partial (ast c : Json) (up : List Nat) (id : Nat)
    (hb : ∀ p n, nodeAt p ast = some n → ¬ BranchBlock id n) :
    insertCommentByPath Solidity.commenting ast c (up ++ [id]) = ast ∨
    CommentAdded .solidity id c ast (insertCommentByPath Solidity.commenting ast c (up ++ [id])) := by
  unfold insertCommentByPath
  rw [List.reverse_append]
  simp only [List.reverse_cons, List.reverse_nil, List.nil_append, List.singleton_append]
  rcases insertCommentLoop_spec Solidity.commenting id c up.reverse ast with ⟨_, h⟩ | ⟨a, _, p, n, _, hp, hm, h⟩
  · exact Or.inl h
  · rw [h]
    rcases solidity_insert_spec id c (hb p n hp) hm with h' | ⟨h', _⟩
    · exact Or.inr (h'.lift hp)
    · left
      show replaceAt p (Solidity.insertComment id c n) ast = ast
      rw [h', replaceAt_self hp]

theorem BlocksHaveStatements.at {ast n : Json} {p : Pos} (h : BlocksHaveStatements ast)
    (hp : nodeAt p ast = some n) : BlocksHaveStatements n := by
  intro q m hq ht
  exact h (p ++ q) m (by rw [nodeAt_append, hp]; exact hq) ht

/-- **C16**, Solidity: the comment does get inserted when an ancestor on the path is a block, checked or
not, with the mutated node in one of its statements. -/
theorem C16_solidity_inserted_partial (ast c : Json) (up : List Nat) (id : Nat)
    (hb : ∀ p n, nodeAt p ast = some n → ¬ BranchBlock id n) (hs : BlocksHaveStatements ast)
    (a : Nat) (ha : a ∈ up) (n s : Json) (xs : List Json) (hn : getNodeWithId solidityId a ast = some n)
    (ht : getStrForKey "nodeType" n = some "Block" ∨ getStrForKey "nodeType" n = some "UncheckedBlock")
    (hx : field "statements" n = some (.arr xs)) (hsx : s ∈ xs) (hid : ContainsId solidityId id s) :
    CommentAdded .solidity id c ast (insertCommentByPath Solidity.commenting ast c (up ++ [id])) := by
  unfold insertCommentByPath
  rw [List.reverse_append]
  simp only [List.reverse_cons, List.reverse_nil, List.nil_append, List.singleton_append]
  have hmem : Solidity.isMember id n = true := by
    have hf : foundInKey solidityId "statements" id n = true := by
      unfold foundInKey getArrayForKey
      cases n with
      | obj kvs =>
        rw [get?_obj (by decide), show objGet "statements" kvs = some (.arr xs) from hx]
        exact foundInArray_iff.2 ⟨s, hsx, hid⟩
      | _ => cases hx
    unfold Solidity.isMember
    rcases ht with ht | ht
    · rw [ht]; exact hf
    · rw [ht]; exact hf
  rcases insertCommentLoop_spec Solidity.commenting id c up.reverse ast with ⟨hno, _⟩ | ⟨b, _, p, m, _, hp, hm, h⟩
  · have := hno a (by simpa using ha) n hn
    rw [show Solidity.commenting.isMember = Solidity.isMember from rfl, hmem] at this
    cases this
  · rw [h]
    rcases solidity_insert_spec id c (hb p m hp) hm with h' | ⟨_, hno⟩
    · exact h'.lift hp
    · exact absurd (hs.at hp) hno

theorem vyper_insert_spec (id : Nat) (c : Json) {n : Json} (hm : Vyper.isMember id n = true) :
    CommentAdded .vyper id c n (Vyper.insertComment id c n) := by
  unfold Vyper.isMember at hm
  unfold Vyper.insertComment
  cases ht : getStrForKey "ast_type" n with
  | none => rw [ht] at hm; cases hm
  | some t =>
    rw [ht] at hm
    simp only at hm ⊢
    have hkey : ∀ key, foundInKey vyperId key id n = true → PlainKey key → parseIndex key = none →
        (t, key) ∈ statementLists .vyper → CommentAdded .vyper id c n (insertInKey vyperId key id c n).1 := by
      intro key hf hp hi hl
      rcases insertInKey_spec hp hi .vyper (idOf := vyperId) rfl id c n ht hl with ⟨hf', _⟩ | ⟨_, j', he, hadd⟩
      · rw [hf] at hf'; cases hf'
      · rw [he]; exact hadd
    by_cases h1 : t = "For"
    · simp only [h1, if_true] at hm ⊢; exact hkey _ hm (by decide) (by decide) (by subst_vars; decide)
    simp only [h1, if_false] at hm ⊢
    by_cases h2 : t = "FunctionDef"
    · simp only [h2, if_true] at hm ⊢; exact hkey _ hm (by decide) (by decide) (by subst_vars; decide)
    simp only [h2, if_false] at hm ⊢
    by_cases h3 : t = "If"
    · simp only [h3, if_true] at hm ⊢
      unfold Vyper.insertInIf
      rcases insertInKey_spec (key := "body") (by decide) (by decide) .vyper (idOf := vyperId) rfl id c n ht (by subst_vars; decide) with
        ⟨hf, he⟩ | ⟨_, j', he, hadd⟩
      · rw [hf, Bool.false_or] at hm
        rw [he]
        exact hkey _ hm (by decide) (by decide) (by subst_vars; decide)
      · rw [he]; exact hadd
    simp only [h3, if_false] at hm ⊢
    by_cases h4 : t = "Module"
    · simp only [h4, if_true] at hm ⊢; exact hkey _ hm (by decide) (by decide) (by subst_vars; decide)
    simp only [h4, if_false] at hm
    cases hm

/-- **C16**, Vyper: inserting the comment for the mutated node leaves the tree alone or adds the comment at
one place beside or around the mutated node. -/
theorem C16_vyper_only_adds (ast c : Json) (up : List Nat) (id : Nat) :
    insertCommentByPath Vyper.commenting ast c (up ++ [id]) = ast ∨
    CommentAdded .vyper id c ast (insertCommentByPath Vyper.commenting ast c (up ++ [id])) := by
  unfold insertCommentByPath
  rw [List.reverse_append]
  simp only [List.reverse_cons, List.reverse_nil, List.nil_append, List.singleton_append]
  rcases insertCommentLoop_spec Vyper.commenting id c up.reverse ast with ⟨_, h⟩ | ⟨a, _, p, n, _, hp, hm, h⟩
  · exact Or.inl h
  · rw [h]; exact Or.inr ((vyper_insert_spec id c hm).lift hp)

/-- **C16**, Vyper: the comment does get inserted when an ancestor on the path is a function, loop or module
with the mutated node in its body, or a branch with it in its body or its other branch. -/
theorem C16_vyper_inserted (ast c : Json) (up : List Nat) (id a : Nat) (ha : a ∈ up) (n s : Json) (t key : String)
    (xs : List Json) (hn : getNodeWithId vyperId a ast = some n) (ht : getStrForKey "ast_type" n = some t)
    (hkey : t ∈ ["For", "FunctionDef", "Module", "If"] ∧ key = "body" ∨ t = "If" ∧ key = "orelse")
    (hx : field key n = some (.arr xs)) (hsx : s ∈ xs) (hid : ContainsId vyperId id s) :
    CommentAdded .vyper id c ast (insertCommentByPath Vyper.commenting ast c (up ++ [id])) := by
  unfold insertCommentByPath
  rw [List.reverse_append]
  simp only [List.reverse_cons, List.reverse_nil, List.nil_append, List.singleton_append]
  have hp : PlainKey key := by rcases hkey with ⟨_, rfl⟩ | ⟨_, rfl⟩ <;> decide
  have hf : foundInKey vyperId key id n = true := by
    unfold foundInKey getArrayForKey
    cases n with
    | obj kvs =>
      rw [get?_obj hp, show objGet key kvs = some (.arr xs) from hx]
      exact foundInArray_iff.2 ⟨s, hsx, hid⟩
    | _ => cases hx
  have hmem : Vyper.isMember id n = true := by
    unfold Vyper.isMember
    rw [ht]
    rcases hkey with ⟨h, rfl⟩ | ⟨rfl, rfl⟩
    · simp only [List.mem_cons, List.not_mem_nil, or_false] at h
      rcases h with rfl | rfl | rfl | rfl <;> simp [hf]
    · simp [hf]
  rcases insertCommentLoop_spec Vyper.commenting id c up.reverse ast with ⟨hno, _⟩ | ⟨b, _, p, m, _, hp, hm, h⟩
  · have := hno a (by simpa using ha) n hn
    rw [show Vyper.commenting.isMember = Vyper.isMember from rfl, hmem] at this
    cases this
  · rw [h]; exact (vyper_insert_spec id c hm).lift hp

/-- **C16**: when no node of the tree equals the comment or looks like the added block, removing comment
and added block from the tree with the comment gives the tree back. -/
theorem C16_comment_removable {lang : Language} {id : Nat} {c ast out : Json}
    (hc : c ∉ preorder ast) (hw : ∀ n ∈ preorder ast, unwrapBlock n = n) (h : CommentAdded lang id c ast out) :
    withoutComment c out = ast := by
  have hf : NoComment c ast := ⟨hc, hw⟩
  cases h with
  | inList p i b pre post s _ _ hp hs hpre =>
    exact withoutComment_replaceAt hf hp (withoutCommentList_insert (hf.at hp)) (size_child (by simp [children]))
  | atTop p i b xs _ hp hb _ hx =>
    exact withoutComment_replaceAt hf hx (withoutCommentList_insert (pre := []) (hf.at hx))
      (size_child (by simp [children]))
  | inBlock p i n s t _ _ _ hp _ _ hs =>
    have hs' := hf.at hp
    refine withoutComment_replaceAt hf hp ?_ ?_
    · simp only [withoutComment, withoutCommentFields, withoutCommentList, if_true, if_neg hs'.ne,
        withoutComment_same s hs', unwrapBlock, and_self]
    · exact Nat.lt_trans (size_child (j := .arr [c, s]) (by simp [children])) (size_child (by simp [children]))

/-- **C16** fails for the block of a branch: the branch is emptied. -/
theorem C16_solidity_counterexample :
    ∃ (ast c : Json) (up : List Nat) (id : Nat),
      let out := insertCommentByPath Solidity.commenting ast c (up ++ [id])
      (∃ s, field "trueBody" ast = some (DemoNodes.Sol.block [s])) ∧ field "trueBody" out = some .null ∧
      withoutComment c out ≠ ast ∧ out ≠ ast ∧ ¬ CommentAdded .solidity id c ast out := by
  let ast := DemoNodes.Sol.ifNode (DemoNodes.Sol.var 3 "b" "bool")
  let c : Json := .str "comment"
  let out : Json := .obj [("body", .obj [("id", .num (.int 13)), ("nodeType", .str "Block"),
      ("statements", .arr [c, DemoNodes.Sol.stmt 1])]), ("condition", DemoNodes.Sol.var 3 "b" "bool"),
    ("id", .num (.int 14)), ("nodeType", .str "IfStatement"), ("trueBody", .null)]
  have hout : insertCommentByPath Solidity.commenting ast c ([14] ++ [13]) = out := by decide +kernel
  refine ⟨ast, c, [14], 13, ?_⟩
  simp only [hout]
  refine ⟨⟨DemoNodes.Sol.stmt 1, rfl⟩, rfl, by decide +kernel, by decide +kernel, fun h => ?_⟩
  have key : ∀ p x, out = replaceAt p x ast → p = [] := by
    intro p x he
    cases p with
    | nil => rfl
    | cons i p =>
      have := replaceAt_children_length (i := i) (p := p) (x := x) (j := ast)
      rw [← he] at this
      exact absurd this (by decide)
  generalize ho : out = o at h
  cases h with
  | inList p i b pre post s hb hl hp hs hpre =>
    have := key _ _ ho
    simp at this
  | atTop p i b xs _ hp hb _ hx =>
    have := key _ _ ho
    simp at this
  | inBlock p i n s t _ _ _ hp _ _ hs =>
    have := key _ _ ho
    simp at this

open DemoNodes Sol in
/-- A comment in a block, first in a function's mutated block, and around the only statement of a loop; the
hypotheses of the theorems hold. -/
example :
    insertCommentByPath Solidity.commenting (block [stmt 1, stmt 2]) (.str "c") [13, 102, 2] =
      block [stmt 1, .str "c", stmt 2] ∧
    insertCommentByPath Solidity.commenting
        (.obj [("body", block [stmt 1]), ("id", id' 20), ("nodeType", .str "FunctionDefinition")]) (.str "c") [20, 13] =
      .obj [("body", block [.str "c", stmt 1]), ("id", id' 20), ("nodeType", .str "FunctionDefinition")] ∧
    insertCommentByPath Solidity.commenting
        (.obj [("body", stmt 1), ("id", id' 20), ("nodeType", .str "WhileStatement")]) (.str "c") [20, 101] =
      .obj [("body", .obj [("id", .num (.int 9999994)), ("nodeType", .str "Block"),
        ("statements", .arr [.str "c", stmt 1])]), ("id", id' 20), ("nodeType", .str "WhileStatement")] := by
  decide +kernel

open DemoNodes Sol in
example : .str "c" ∉ preorder (block [stmt 1, stmt 2]) ∧ ∀ n ∈ preorder (block [stmt 1, stmt 2]), unwrapBlock n = n := by
  decide +kernel

open DemoNodes Vy in
example : insertCommentByPath Vyper.commenting (func [stmt 1, ret] .null) (.str "c") [13, 12] =
    func [stmt 1, .str "c", ret] .null := by decide +kernel

open DemoNodes Sol in
/-- A branch whose statement, not whose block, is mutated. -/
example : let ast := block [ifNode (var 3 "b" "bool")]
    (∀ p n, nodeAt p ast = some n → ¬ BranchBlock 101 n) ∧ BlocksHaveStatements ast ∧
    ContainsId solidityId 101 (ifNode (var 3 "b" "bool")) := by
  refine ⟨fun p n hp => ?_, fun p n hp => ?_, [3, 2, 0], stmt 1, by decide +kernel, by decide +kernel⟩
  · have : ∀ n ∈ preorder (block [ifNode (var 3 "b" "bool")]), ∀ k ∈ ["trueBody", "falseBody", "block"],
        (field k n).any (fun b => decide (solidityId b = some 101)) = false := by decide +kernel
    rintro ⟨k, hk, b, hb, _, hid⟩
    have h := this n (mem_preorder_of_nodeAt hp) k hk
    rw [hb] at h
    simp [hid] at h
  · have : ∀ n ∈ preorder (block [ifNode (var 3 "b" "bool")]), getStrForKey "nodeType" n = some "Block" →
        ((field "statements" n).bind asArray).isSome := by decide +kernel
    intro ht
    have h := this n (mem_preorder_of_nodeAt hp) ht
    cases hf : field "statements" n with
    | none => rw [hf] at h; cases h
    | some v =>
      rw [hf] at h
      cases v with
      | arr xs => exact ⟨xs, rfl⟩
      | _ => cases h

end Mutagenyx
