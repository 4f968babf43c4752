import Verif.Model.NodePrinter
import Verif.Proofs.Json

/-!
# Lemmas about printing nodes
-/

namespace Mutagenyx
namespace NodePrinter

variable {σ : Type}

/-! ### What the traversal does -/

/-- What is done for a node, given what is done for its children. -/
def around (l : Layout σ) (inner : List (Piece σ)) : List (Piece σ) :=
  l.entry ++ (l.body ++ ((if l.visitChildren then inner else []) ++ l.exit))

theorem visitor_onEnter (pf : Json → Layout σ) (n st) :
    (visitor pf).onEnter n st = (pf n :: st.1, st.2 ++ (pf n).entry) := rfl
theorem visitor_havePermission (pf : Json → Layout σ) (n st) : (visitor pf).havePermission n st = true := rfl
theorem visitor_visit (pf : Json → Layout σ) (n : Json) (l st out) :
    (visitor pf).visit n (l :: st, out) = (false, (l :: st, out ++ l.body)) := rfl
theorem visitor_visitChildren (pf : Json → Layout σ) (n : Json) (l st out) :
    (visitor pf).visitChildren n (l :: st, out) = l.visitChildren := rfl
theorem visitor_onStart (pf : Json → Layout σ) (n : Json) (st) : (visitor pf).onStart n st = st := rfl
theorem visitor_onEnd (pf : Json → Layout σ) (n : Json) (st) : (visitor pf).onEnd n st = st := rfl
theorem visitor_onExit (pf : Json → Layout σ) (n : Json) (l st out) :
    (visitor pf).onExit n (l :: st, out) = (st, out ++ l.exit) := rfl

mutual
theorem traverse_visitor (pf : Json → Layout σ) (st : List (Layout σ)) : (n : Json) → (out : List (Piece σ)) →
    traverse (visitor pf) n (st, out) = (false, (st, out ++ pieces pf n))
  | .null, out => by
    simp [pieces, traverse, traverseLeaf, visitor]
  | .bool b, out => by
    simp [pieces, traverse, traverseLeaf, visitor]
  | .num b, out => by
    simp [pieces, traverse, traverseLeaf, visitor]
  | .str b, out => by
    simp [pieces, traverse, traverseLeaf, visitor]
  | .arr xs, out => by
    have h1 := traverseList_visitor pf (pf (.arr xs) :: st) xs (out ++ (pf (.arr xs)).entry ++ (pf (.arr xs)).body)
    have h2 := traverseList_visitor pf [pf (.arr xs)] xs ([] ++ (pf (.arr xs)).entry ++ (pf (.arr xs)).body)
    simp only [pieces, traverse, visitor_onEnter, visitor_havePermission, visitor_visit, visitor_visitChildren, visitor_onStart,
      visitor_onEnd, visitor_onExit, if_true, Bool.false_eq_true, if_false]
    rw [h1, h2]
    by_cases hv : (pf (.arr xs)).visitChildren = true
    · simp [hv, visitor_onExit]
    · simp [hv]
  | .obj xs, out => by
    have h1 := traverseFields_visitor pf (pf (.obj xs) :: st) xs (out ++ (pf (.obj xs)).entry ++ (pf (.obj xs)).body)
    have h2 := traverseFields_visitor pf [pf (.obj xs)] xs ([] ++ (pf (.obj xs)).entry ++ (pf (.obj xs)).body)
    simp only [pieces, traverse, visitor_onEnter, visitor_havePermission, visitor_visit, visitor_visitChildren, visitor_onStart,
      visitor_onEnd, visitor_onExit, if_true, Bool.false_eq_true, if_false]
    rw [h1, h2]
    by_cases hv : (pf (.obj xs)).visitChildren = true
    · simp [hv, visitor_onExit]
    · simp [hv]
theorem traverseList_visitor (pf : Json → Layout σ) (st : List (Layout σ)) : (xs : List Json) →
    (out : List (Piece σ)) →
    traverseList (visitor pf) xs (st, out) = (false, (st, out ++ xs.flatMap (pieces pf)))
  | [], out => by simp [traverseList]
  | x :: xs, out => by
    simp [traverseList, traverse_visitor pf st x out, traverseList_visitor pf st xs]
theorem traverseFields_visitor (pf : Json → Layout σ) (st : List (Layout σ)) : (xs : List (String × Json)) →
    (out : List (Piece σ)) →
    traverseFields (visitor pf) xs (st, out) = (false, (st, out ++ (xs.map Prod.snd).flatMap (pieces pf)))
  | [], out => by simp [traverseFields]
  | (k, x) :: xs, out => by
    simp [traverseFields, traverse_visitor pf st x out, traverseFields_visitor pf st xs]
end

/-- What printing a node does: what its printer does on entry, then for the node, then the same for the
children if the printer asks for that, then what the printer does on exit. -/
theorem pieces_eq (pf : Json → Layout σ) (n : Json) :
    pieces pf n = around (pf n) (n.children.flatMap (pieces pf)) := by
  cases n with
  | arr xs =>
    have h := traverseList_visitor pf [pf (.arr xs)] xs ([] ++ (pf (.arr xs)).entry ++ (pf (.arr xs)).body)
    conv => lhs; unfold pieces
    simp only [traverse, visitor_onEnter, visitor_havePermission, visitor_visit, visitor_visitChildren, visitor_onStart,
      visitor_onEnd, visitor_onExit, if_true, Bool.false_eq_true, if_false]
    rw [h]
    by_cases hv : (pf (.arr xs)).visitChildren = true
    · simp [hv, around, Json.children, visitor_onExit]
    · simp [hv, around]
  | obj xs =>
    have h := traverseFields_visitor pf [pf (.obj xs)] xs ([] ++ (pf (.obj xs)).entry ++ (pf (.obj xs)).body)
    conv => lhs; unfold pieces
    simp only [traverse, visitor_onEnter, visitor_havePermission, visitor_visit, visitor_visitChildren, visitor_onStart,
      visitor_onEnd, visitor_onExit, if_true, Bool.false_eq_true, if_false]
    rw [h]
    by_cases hv : (pf (.obj xs)).visitChildren = true
    · simp [hv, around, Json.children, visitor_onExit]
    · simp [hv, around]
  | _ =>
    simp only [pieces, traverse, traverseLeaf, visitor, around, Json.children]
    simp

/-! ### Depth -/

theorem depth_mem_arr {xs : List Json} {x : Json} (h : x ∈ xs) : depth x < depth (.arr xs) := by
  have : depth.go x + 1 ≤ depth.goList xs := by
    induction xs with
    | nil => cases h
    | cons y ys ih =>
      simp only [depth.goList]
      rcases List.mem_cons.1 h with rfl | h
      · exact Nat.le_max_left _ _
      · exact Nat.le_trans (ih h) (Nat.le_max_right _ _)
  simp only [depth, depth.go]
  omega

theorem depth_mem_obj {kvs : List (String × Json)} {x : Json} (h : x ∈ kvs.map Prod.snd) :
    depth x < depth (.obj kvs) := by
  have : depth.go x + 1 ≤ depth.goFields kvs := by
    induction kvs with
    | nil => cases h
    | cons y ys ih =>
      obtain ⟨k, v⟩ := y
      simp only [depth.goFields]
      rcases List.mem_cons.1 h with rfl | h
      · exact Nat.le_max_left _ _
      · exact Nat.le_trans (ih h) (Nat.le_max_right _ _)
  simp only [depth, depth.go]
  omega

theorem depth_children {n x : Json} (h : x ∈ n.children) : depth x < depth n := by
  cases n with
  | arr xs => exact depth_mem_arr h
  | obj kvs => exact depth_mem_obj h
  | _ => cases h

theorem mem_of_objGet {k : String} {v : Json} : {kvs : List (String × Json)} → Json.objGet k kvs = some v →
    v ∈ kvs.map Prod.snd
  | [], h => by cases h
  | (l, w) :: kvs, h => by
    simp only [Json.objGet] at h
    split at h
    · cases h; simp
    · exact List.mem_cons_of_mem _ (mem_of_objGet h)

theorem depth_field {k : String} {n v : Json} (h : Json.field? k n = some v) : depth v < depth n := by
  cases n with
  | obj kvs => exact depth_mem_obj (mem_of_objGet h)
  | _ => cases h

theorem depth_step {t : String} {n v : Json} (h : Json.step t n = some v) : depth v < depth n := by
  cases n with
  | obj kvs => exact depth_mem_obj (mem_of_objGet h)
  | arr xs =>
    simp only [Json.step] at h
    split at h
    · exact depth_mem_arr (List.mem_of_getElem? h)
    · cases h
  | _ => cases h

theorem depth_follow : {ts : List String} → {n v : Json} → Json.follow ts n = some v → depth v ≤ depth n
  | [], _, _, h => by cases h; exact Nat.le_refl _
  | t :: ts, n, v, h => by
    simp only [Json.follow] at h
    split at h
    · next hs => exact Nat.le_of_lt (Nat.lt_of_le_of_lt (depth_follow h) (depth_step hs))
    · cases h

theorem splitSlash_ne_nil (cs : List Char) : Json.splitSlash cs ≠ [] := by
  cases cs with
  | nil => simp [Json.splitSlash]
  | cons c cs =>
    simp only [Json.splitSlash]
    split
    · simp
    · split <;> simp

theorem depth_get {k : String} {n v : Json} (h : Json.get? k n = some v) : depth v < depth n := by
  unfold Json.get? Json.pointer at h
  have hp : Json.pointerTokens (Json.jsonPath k) = some ((Json.splitSlash k.toList).map Json.unescapeToken) := by
    unfold Json.pointerTokens Json.jsonPath
    rw [String.toList_append]
    rfl
  rw [hp] at h
  simp only at h
  have hne := splitSlash_ne_nil k.toList
  generalize Json.splitSlash k.toList = l at h hne
  cases l with
  | nil => exact absurd rfl hne
  | cons t ts =>
    simp only [List.map_cons, Json.follow] at h
    split at h
    · next hs => exact Nat.lt_of_le_of_lt (depth_follow h) (depth_step hs)
    · cases h

theorem depth_getArray {k : String} {n x : Json} {xs : List Json} (h : n.getArrayForKey k = some xs)
    (hx : x ∈ xs) : depth x < depth n := by
  unfold Json.getArrayForKey at h
  cases hg : Json.get? k n with
  | none => rw [hg] at h; cases h
  | some v =>
    rw [hg] at h
    cases v with
    | arr ys => cases h; exact Nat.lt_trans (depth_mem_arr hx) (depth_get hg)
    | _ => cases h

/-! ### Well-behaved lists of pieces -/

/-- The node that a piece prints. -/
def _root_.Mutagenyx.Piece.node? : Piece σ → Option Json
  | .op _ => none
  | .sub _ n => some n
  | .quote _ n _ => some n

/-- The level of indentation after the pieces, starting with level `n`; `none` if it would fall below 0 in
between or a piece changes it by more than one. -/
def walk : Nat → List (Piece σ) → Option Nat
  | n, [] => some n
  | n, .op .incr :: ps => walk (n + 1) ps
  | 0, .op .decr :: _ => none
  | n + 1, .op .decr :: ps => walk n ps
  | _, .op (.incrBy _) :: _ => none
  | _, .op (.decrBy _) :: _ => none
  | n, _ :: ps => walk n ps

theorem walk_append (a b : List (Piece σ)) (n : Nat) : walk n (a ++ b) = (walk n a).bind (walk · b) := by
  induction a generalizing n with
  | nil => rfl
  | cons p a ih =>
    cases p with
    | op o => cases o with
      | decr => cases n with
        | zero => rfl
        | succ n => simp only [List.cons_append, walk, ih]
      | incrBy k => simp [walk]
      | decrBy k => simp [walk]
      | _ => simp only [List.cons_append, walk, ih]
    | _ => simp only [List.cons_append, walk, ih]

/-- The pieces only print nodes less deep than `d`, and leave the indentation as it is. -/
structure Good (d : Nat) (ps : List (Piece σ)) : Prop where
  below : ∀ p ∈ ps, ∀ n, p.node? = some n → depth n < d
  level : ∀ n, walk n ps = some n

theorem Good.mono {d e : Nat} {ps : List (Piece σ)} (h : Good d ps) (hde : d ≤ e) : Good e ps :=
  ⟨fun p hp n hn => Nat.lt_of_lt_of_le (h.1 p hp n hn) hde, h.2⟩

variable {d : Nat} {s : σ}

theorem good_nil : Good d ([] : List (Piece σ)) := ⟨fun _ h => (by cases h), fun _ => rfl⟩

theorem good_append {a b : List (Piece σ)} (ha : Good d a) (hb : Good d b) : Good d (a ++ b) := by
  refine ⟨fun p hp => ?_, fun n => ?_⟩
  · rcases List.mem_append.1 hp with hp | hp
    · exact ha.1 p hp
    · exact hb.1 p hp
  · rw [walk_append, ha.2]
    exact hb.2 n

theorem good_op {o : Op} (h : ∀ n, walk (σ := σ) n [.op o] = some n) : Good d [Piece.op (σ := σ) o] :=
  ⟨fun p hp n hn => (by rw [List.mem_singleton.1 hp] at hn; cases hn), h⟩

theorem good_tok {t : String} : Good d (tok (σ := σ) t) := good_op fun _ => rfl
theorem good_token {t : List Char} : Good d [Piece.op (σ := σ) (.token t)] := good_op fun _ => rfl
theorem good_string {t : List Char} : Good d [Piece.op (σ := σ) (.string t)] := good_op fun _ => rfl
theorem good_triple {t : List Char} : Good d [Piece.op (σ := σ) (.triple t)] := good_op fun _ => rfl
theorem good_flow {t u : List Char} : Good d [Piece.op (σ := σ) (.flow t u)] := good_op fun _ => rfl
theorem good_sp : Good d (sp (σ := σ)) := good_op fun _ => rfl
theorem good_nl : Good d (nl (σ := σ)) := good_op fun _ => rfl
theorem good_ind : Good d (ind (σ := σ)) := good_op fun _ => rfl
theorem good_crash : Good d (crash (σ := σ)) := good_op fun _ => rfl

theorem good_sub {n : Json} (h : depth n < d) : Good d [Piece.sub s n] :=
  ⟨fun p hp m hm => by rw [List.mem_singleton.1 hp] at hm; cases hm; exact h, fun _ => rfl⟩

theorem good_quote {n : Json} {next : List Char} (h : depth n < d) : Good d [Piece.quote s n next] :=
  ⟨fun p hp m hm => by rw [List.mem_singleton.1 hp] at hm; cases hm; exact h, fun _ => rfl⟩

theorem good_indented {a : List (Piece σ)} (h : Good d a) : Good d (inc ++ a ++ dec) := by
  refine ⟨fun p hp => ?_, fun n => ?_⟩
  · simp only [List.mem_append] at hp
    rcases hp with (hp | hp) | hp
    · rw [List.mem_singleton.1 hp]; intro n hn; cases hn
    · exact h.1 p hp
    · rw [List.mem_singleton.1 hp]; intro n hn; cases hn
  · rw [walk_append, walk_append]
    simp [inc, dec, walk, h.2]

theorem good_ite {c : Prop} [Decidable c] {a b : List (Piece σ)} (ha : Good d a) (hb : Good d b) :
    Good d (if c then a else b) := by
  split
  · exact ha
  · exact hb

theorem good_when {c : Bool} {a : List (Piece σ)} (ha : Good d a) : Good d (when c a) := good_ite ha good_nil

theorem good_onSome {α : Type} {o : Option α} {f : α → List (Piece σ)} (h : ∀ a, o = some a → Good d (f a)) :
    Good d (onSome o f) := by
  cases o with
  | none => exact good_nil
  | some a => exact h a rfl

theorem good_onSome' {α : Type} {o : Option α} {f : α → List (Piece σ)} (h : ∀ a, Good d (f a)) :
    Good d (onSome o f) := good_onSome fun a _ => h a

theorem good_onField {key : String} {node : Json} {f : Json → List (Piece σ)}
    (h : ∀ n, depth n < depth node → Good d (f n)) : Good d (onField key node f) :=
  good_onSome fun n hn => h n (depth_field hn)

theorem good_field {key : String} {node : Json} : Good (depth node) (field s key node) :=
  good_onField fun _ h => good_sub h

theorem good_onArray {key : String} {node : Json} {f : List Json → List (Piece σ)}
    (h : ∀ xs : List Json, (∀ x ∈ xs, depth x < depth node) → Good d (f xs)) : Good d (onArray key node f) :=
  good_onField fun n hn => good_onSome fun xs hx => h xs fun x hxs => by
    cases n with
    | arr ys => cases hx; exact Nat.lt_trans (depth_mem_arr hxs) hn
    | _ => cases hx

theorem good_onGetArray {key : String} {node : Json} {f : List Json → List (Piece σ)}
    (h : ∀ xs : List Json, (∀ x ∈ xs, depth x < depth node) → Good d (f xs)) :
    Good d (onSome (node.getArrayForKey key) f) :=
  good_onSome fun xs hx => h xs fun _ hxs => depth_getArray hx hxs

theorem good_onStr {key : String} {node : Json} {f : String → List (Piece σ)} (h : ∀ t, Good d (f t)) :
    Good d (onStr key node f) := good_onSome' h

theorem good_strTok {key : String} {node : Json} : Good d (strTok (σ := σ) key node) := good_onStr fun _ => good_tok

theorem good_arrayLoop {node : Json → List (Piece σ)} {between : List (Piece σ)} {len : Nat}
    (hb : Good d between) : (i : Nat) → (xs : List Json) → (∀ x ∈ xs, Good d (node x)) →
    Good d (arrayLoop node between len i xs)
  | _, [], _ => good_nil
  | i, x :: xs, h => good_append (h x (List.mem_cons_self ..)) (good_append (good_when hb)
      (good_arrayLoop hb (i + 1) xs fun y hy => h y (List.mem_cons_of_mem _ hy)))

theorem good_arrayWith {node : Json → List (Piece σ)} {between : List (Piece σ)} {xs : List Json}
    (hb : Good d between) (h : ∀ x ∈ xs, Good d (node x)) : Good d (arrayWith node between xs) :=
  good_arrayLoop hb 0 xs h

theorem good_array {xs : List Json} (h : ∀ x ∈ xs, depth x < d) : Good d (array s xs) :=
  good_arrayWith (good_append good_tok good_sp) fun x hx => good_sub (h x hx)

theorem good_flatMap {α : Type} {xs : List α} {f : α → List (Piece σ)} (h : ∀ x ∈ xs, Good d (f x)) :
    Good d (xs.flatMap f) := by
  induction xs with
  | nil => exact good_nil
  | cons x xs ih =>
    rw [List.flatMap_cons]
    exact good_append (h x (List.mem_cons_self ..)) (ih fun y hy => h y (List.mem_cons_of_mem _ hy))

/-- A node printer that only prints nodes less deep than `d` and leaves the indentation as it is, if what it
does for the children does. -/
def GoodLayout (d : Nat) (l : Layout σ) : Prop := ∀ inner, Good d inner → Good d (around l inner)

theorem goodLayout_ite {c : Prop} [Decidable c] {a b : Layout σ} (ha : GoodLayout d a) (hb : GoodLayout d b) :
    GoodLayout d (if c then a else b) := by
  split
  · exact ha
  · exact hb

theorem goodLayout_of {l : Layout σ} (h1 : Good d l.entry) (h2 : Good d l.body) (h3 : Good d l.exit) :
    GoodLayout d l := fun _ hi =>
  good_append h1 (good_append h2 (good_append (good_ite hi good_nil) h3))

/-- The printers of a language behave well on every node. -/
def GoodPrinter (pf : σ → Json → Layout σ) : Prop := ∀ s n, GoodLayout (depth n) (pf s n)

theorem good_pieces {pf : σ → Json → Layout σ} (h : GoodPrinter pf) (s : σ) : (n : Json) →
    Good (depth n) (pieces (pf s) n) := by
  have key : ∀ k n, depth n ≤ k → Good (depth n) (pieces (pf s) n) := by
    intro k
    induction k with
    | zero =>
      intro n hn
      rw [pieces_eq]
      refine h s n _ (good_flatMap fun x hx => ?_)
      exact absurd (depth_children hx) (by omega)
    | succ k ih =>
      intro n hn
      rw [pieces_eq]
      refine h s n _ (good_flatMap fun x hx => ?_)
      have := depth_children hx
      exact (ih x (by omega)).mono (by omega)
  exact fun n => key _ n (Nat.le_refl _)

/-! ### Unfolding -/

theorem expand_congr {checks : Bool} {f g : σ → Json → List Op} : {ps : List (Piece σ)} →
    (∀ p ∈ ps, ∀ n, p.node? = some n → ∀ s, f s n = g s n) → expand checks f ps = expand checks g ps
  | [], _ => rfl
  | .op o :: ps, h => by
    simp only [expand]
    rw [expand_congr fun p hp => h p (List.mem_cons_of_mem _ hp)]
  | .sub s n :: ps, h => by
    simp only [expand]
    rw [expand_congr fun p hp => h p (List.mem_cons_of_mem _ hp), h _ (List.mem_cons_self ..) n rfl s]
  | .quote s n next :: ps, h => by
    simp only [expand]
    rw [expand_congr fun p hp => h p (List.mem_cons_of_mem _ hp), h _ (List.mem_cons_self ..) n rfl s]

theorem expand_append {checks : Bool} {f : σ → Json → List Op} (a b : List (Piece σ)) :
    expand checks f (a ++ b) = expand checks f a ++ expand checks f b := by
  induction a with
  | nil => rfl
  | cons p a ih => cases p <;> simp [expand, ih]

theorem opsFuel_stable {pf : σ → Json → Layout σ} (h : GoodPrinter pf) (checks : Bool) : (k : Nat) →
    (s : σ) → (n : Json) → depth n ≤ k → (f : Nat) → depth n < f →
    opsFuel checks pf f s n = opsFuel checks pf (depth n + 1) s n := by
  intro k
  induction k with
  | zero =>
    intro s n hk f hf
    obtain ⟨f, rfl⟩ : ∃ g, f = g + 1 := ⟨f - 1, by omega⟩
    simp only [opsFuel]
    refine expand_congr fun p hp m hm t => ?_
    have := (good_pieces h s n).below p hp m hm
    omega
  | succ k ih =>
    intro s n hk f hf
    obtain ⟨f, rfl⟩ : ∃ g, f = g + 1 := ⟨f - 1, by omega⟩
    simp only [opsFuel]
    refine expand_congr fun p hp m hm t => ?_
    have := (good_pieces h s n).below p hp m hm
    rw [ih t m (by omega) f (by omega), ih t m (by omega) (depth n) (by omega)]

/-- The calls that print a node are those its printer makes, with the nodes it prints replaced by the calls
that print them. -/
theorem ops_eq {pf : σ → Json → Layout σ} (h : GoodPrinter pf) (checks : Bool) (s : σ) (n : Json) :
    ops checks pf s n = expand checks (ops checks pf) (pieces (pf s) n) := by
  simp only [ops, opsFuel]
  refine expand_congr fun p hp m hm t => ?_
  have := (good_pieces h s n).below p hp m hm
  exact opsFuel_stable h checks _ t m (Nat.le_refl _) _ this

/-! ### Tactics -/

/-- Take a list of pieces apart into the cases of `Good`. -/
macro "good_step" : tactic => `(tactic| with_reducible first
  | assumption
  | exact good_tok | exact good_sp | exact good_nl | exact good_ind | exact good_strTok | exact good_crash
  | exact good_nil | exact good_field | exact good_flow | exact good_string | exact good_triple
  | exact good_token
  | exact good_sub ‹_›
  | exact good_sub (Nat.lt_trans ‹_› ‹_›)
  | exact good_array ‹_›
  | exact good_quote ‹_›
  | apply good_indented
  | apply good_when
  | apply good_ite
  | apply good_append
  | (refine good_onArray fun xs hxs => ?_)
  | (refine good_onGetArray fun xs hxs => ?_)
  | (refine good_onField fun n hn => ?_)
  | (refine good_onStr fun t => ?_)
  | (refine good_onSome' fun a => ?_)
  | (refine good_flatMap fun x hx => ?_; try have hx' := ‹∀ x ∈ _, depth x < depth _› x hx)
  | (refine good_arrayWith ?_ fun x hx => ?_; rotate_left; try have hx' := ‹∀ x ∈ _, depth x < depth _› x hx))

/-- Prove that a list of pieces is good. -/
macro "good" : tactic => `(tactic| repeat' good_step)

end NodePrinter
end Mutagenyx
