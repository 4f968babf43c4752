import Verif.Spec.Sturdy
import Verif.Proofs.NodePrinter
import Verif.Props.Flow
import Verif.Props.Printer
import Verif.Proofs.SolidityFile

/-!
# Printing that comes to an end
-/

namespace Mutagenyx

/-! ### Parts of a tree -/

namespace Json

theorem Within.trans {a b c : Json} (h : Within a b) (h' : Within b c) : Within a c := by
  induction h' with
  | refl => exact h
  | step hc _ ih => exact .step hc ih

theorem Within.mono_depth {a b : Json} (h : Within a b) : NodePrinter.depth a ≤ NodePrinter.depth b := by
  induction h with
  | refl => exact Nat.le_refl _
  | step hc _ ih => exact Nat.le_trans ih (Nat.le_of_lt (NodePrinter.depth_children hc))

/-- A proper part. -/
def Inside (m n : Json) : Prop := ∃ c, c ∈ n.children ∧ Within m c

theorem Inside.within {m n : Json} (h : Inside m n) : Within m n := .step h.choose_spec.1 h.choose_spec.2

theorem Inside.depth_lt {m n : Json} (h : Inside m n) : NodePrinter.depth m < NodePrinter.depth n :=
  Nat.lt_of_le_of_lt h.choose_spec.2.mono_depth (NodePrinter.depth_children h.choose_spec.1)

theorem Inside.trans {a b c : Json} (h : Inside a b) (h' : Inside b c) : Inside a c :=
  ⟨h'.choose, h'.choose_spec.1, h.within.trans h'.choose_spec.2⟩

theorem inside_child {c n : Json} (h : c ∈ n.children) : Inside c n := ⟨c, h, .refl c⟩

theorem inside_field {k : String} {n v : Json} (h : Json.field? k n = some v) : Inside v n := by
  cases n with
  | obj kvs => exact inside_child (NodePrinter.mem_of_objGet h)
  | _ => cases h

theorem inside_elem {xs : List Json} {x : Json} (h : x ∈ xs) : Inside x (.arr xs) := inside_child h

theorem inside_step {t : String} {n v : Json} (h : Json.step t n = some v) : Inside v n := by
  cases n with
  | obj kvs => exact inside_child (NodePrinter.mem_of_objGet h)
  | arr xs =>
    simp only [Json.step] at h
    split at h
    · exact inside_elem (List.mem_of_getElem? h)
    · cases h
  | _ => cases h

theorem within_follow : {ts : List String} → {n v : Json} → Json.follow ts n = some v → Within v n
  | [], _, _, h => by cases h; exact .refl _
  | t :: ts, n, v, h => by
    simp only [Json.follow] at h
    split at h
    · next hs => exact (within_follow h).trans (inside_step hs).within
    · cases h

theorem inside_get {k : String} {n v : Json} (h : Json.get? k n = some v) : Inside v n := by
  unfold Json.get? Json.pointer at h
  have hp : Json.pointerTokens (Json.jsonPath k) = some ((Json.splitSlash k.toList).map Json.unescapeToken) := by
    unfold Json.pointerTokens Json.jsonPath
    rw [String.toList_append]
    rfl
  rw [hp] at h
  simp only at h
  have hne := NodePrinter.splitSlash_ne_nil k.toList
  generalize Json.splitSlash k.toList = l at h hne
  cases l with
  | nil => exact absurd rfl hne
  | cons t ts =>
    simp only [List.map_cons, Json.follow] at h
    split at h
    · next hs =>
      have h1 := within_follow h
      obtain ⟨c, hc, hw⟩ := inside_step hs
      exact ⟨c, hc, h1.trans hw⟩
    · cases h

theorem inside_getArray {k : String} {n x : Json} {xs : List Json} (h : n.getArrayForKey k = some xs)
    (hx : x ∈ xs) : Inside x n := by
  unfold Json.getArrayForKey at h
  cases hg : Json.get? k n with
  | none => rw [hg] at h; cases h
  | some v =>
    rw [hg] at h
    cases v with
    | arr ys => cases h; exact (inside_elem hx).trans (inside_get hg)
    | _ => cases h

variable {c : Json → Bool}

theorem nest_goList {xs : List Json} {x : Json} (h : x ∈ xs) : nest c x ≤ nest.goList c xs := by
  induction xs with
  | nil => cases h
  | cons y ys ih =>
    simp only [nest.goList]
    rcases List.mem_cons.1 h with rfl | h
    · exact Nat.le_max_left _ _
    · exact Nat.le_trans (ih h) (Nat.le_max_right _ _)

theorem nest_goFields {kvs : List (String × Json)} {x : Json} (h : x ∈ kvs.map Prod.snd) :
    nest c x ≤ nest.goFields c kvs := by
  induction kvs with
  | nil => cases h
  | cons y ys ih =>
    obtain ⟨k, v⟩ := y
    simp only [nest.goFields]
    rcases List.mem_cons.1 h with rfl | h
    · exact Nat.le_max_left _ _
    · exact Nat.le_trans (ih h) (Nat.le_max_right _ _)

theorem nest_child {n x : Json} (h : x ∈ n.children) : nest c x + (if c n then 1 else 0) ≤ nest c n := by
  cases n with
  | arr xs =>
    have := nest_goList (c := c) (show x ∈ xs from h)
    show _ ≤ (if c (.arr xs) then 1 else 0) + nest.goList c xs
    omega
  | obj kvs =>
    have := nest_goFields (c := c) (show x ∈ kvs.map Prod.snd from h)
    show _ ≤ (if c (.obj kvs) then 1 else 0) + nest.goFields c kvs
    omega
  | _ => cases h

theorem nest_within {m n : Json} (h : Within m n) : nest c m ≤ nest c n := by
  induction h with
  | refl => exact Nat.le_refl _
  | step hc _ ih =>
    have := nest_child (c := c) hc
    omega

theorem nest_inside {m n : Json} (h : Inside m n) : nest c m + (if c n then 1 else 0) ≤ nest c n := by
  obtain ⟨x, hx, hm⟩ := h
  have h1 := nest_within (c := c) hm
  have h2 := nest_child (c := c) hx
  omega

end Json

/-! ### Calls that end -/

namespace Printer

/-- A printer as the tool uses it, with room for so many levels of indentation more. -/
structure Ready (w : Option Nat) (b : Nat) (p : Printer) : Prop where
  page : p.pageWidth = 150
  tab : p.tabWidth = 4
  max : p.maxIndent = 36
  room : RoomFor w (p.indent + b)

theorem Ready.mono {w : Option Nat} {a b : Nat} {p : Printer} (h : Ready w b p) (hab : a ≤ b) : Ready w a p :=
  ⟨h.page, h.tab, h.max, fun W hW => by have := h.room W hW; omega⟩

/-- The printer is as before, apart from what was written; if there is running text, with the same indentation. -/
structure Kept (w : Option Nat) (p q : Printer) : Prop where
  page : q.pageWidth = p.pageWidth
  tab : q.tabWidth = p.tabWidth
  max : q.maxIndent = p.maxIndent
  indent : w.isSome → q.indent = p.indent

theorem Kept.refl {w : Option Nat} (p : Printer) : Kept w p p := ⟨rfl, rfl, rfl, fun _ => rfl⟩

theorem Kept.trans {w : Option Nat} {p q r : Printer} (h : Kept w p q) (h' : Kept w q r) : Kept w p r :=
  ⟨h'.page.trans h.page, h'.tab.trans h.tab, h'.max.trans h.max, fun hw => (h'.indent hw).trans (h.indent hw)⟩

theorem Ready.kept {w : Option Nat} {b : Nat} {p q : Printer} (h : Ready w b p) (k : Kept w p q) : Ready w b q :=
  ⟨k.page.trans h.page, k.tab.trans h.tab, k.max.trans h.max, fun W hW => by
    rw [k.indent (by rw [hW]; rfl)]; exact h.room W hW⟩

theorem SameLayout.kept {w : Option Nat} {p q : Printer} (h : SameLayout p q) : Kept w p q :=
  ⟨h.pageWidth, h.tabWidth, h.maxIndent, fun _ => h.indent⟩

/-- The calls end, wherever there is room for `b` more levels of indentation. -/
def Fine (checks : Bool) (w : Option Nat) (b : Nat) (ops : List Op) : Prop :=
  ∀ p, Ready w b p → ∃ q, run checks ops p = .ok q ∧ Kept w p q

variable {checks : Bool} {w : Option Nat} {b : Nat}

theorem Fine.mono {a : Nat} {ops : List Op} (h : Fine checks w a ops) (hab : a ≤ b) : Fine checks w b ops :=
  fun p hp => h p (hp.mono hab)

theorem Fine.nil : Fine checks w b [] := fun p _ => ⟨p, rfl, .refl p⟩

theorem Fine.append {x y : List Op} (hx : Fine checks w b x) (hy : Fine checks w b y) : Fine checks w b (x ++ y) := by
  intro p hp
  obtain ⟨q, h1, k1⟩ := hx p hp
  obtain ⟨r, h2, k2⟩ := hy q (hp.kept k1)
  refine ⟨r, ?_, k1.trans k2⟩
  rw [run_append, h1]
  exact h2

theorem Fine.one {o : Op} (h : ∀ p, ∃ q, exec checks o p = .ok q)
    (hc : change o = 0 ∧ ∀ n, o ≠ .incrBy n ∧ o ≠ .decrBy n) : Fine checks w b [o] := by
  intro p _
  obtain ⟨q, h1⟩ := h p
  exact ⟨q, by simp only [run, h1], (exec_writes h1 hc).kept⟩

theorem Fine.indented {x : List Op} (hx : Fine checks w b x) :
    Fine checks w (b + 1) ([.incr] ++ x ++ [.decr]) := by
  intro p hp
  have hr : Ready w b p.increaseIndent := by
    unfold increaseIndent
    split
    · exact ⟨hp.page, hp.tab, hp.max, fun W hW => by have := hp.room W hW; have := hp.max; simp only; omega⟩
    · exact ⟨hp.page, hp.tab, hp.max, fun W hW => by have := hp.room W hW; simp only; omega⟩
  obtain ⟨q, h1, k1⟩ := hx _ hr
  refine ⟨q.decreaseIndent, ?_, ?_⟩
  · rw [List.append_assoc, run_append]
    simp only [run, exec]
    rw [run_append, h1]
    rfl
  · have e : p.increaseIndent.pageWidth = p.pageWidth ∧ p.increaseIndent.tabWidth = p.tabWidth ∧
        p.increaseIndent.maxIndent = p.maxIndent := by unfold increaseIndent; split <;> exact ⟨rfl, rfl, rfl⟩
    have f : q.decreaseIndent.pageWidth = q.pageWidth ∧ q.decreaseIndent.tabWidth = q.tabWidth ∧
        q.decreaseIndent.maxIndent = q.maxIndent := by unfold decreaseIndent; split <;> exact ⟨rfl, rfl, rfl⟩
    refine ⟨f.1.trans (k1.page.trans e.1), f.2.1.trans (k1.tab.trans e.2.1), f.2.2.trans (k1.max.trans e.2.2), ?_⟩
    intro hw
    have hi := k1.indent hw
    obtain ⟨W, rfl⟩ := Option.isSome_iff_exists.1 hw
    have hroom := hp.room W rfl
    have hmax := hp.max
    have g : p.increaseIndent.indent = p.indent + 1 := by
      unfold increaseIndent
      split
      · omega
      · rfl
    rw [g] at hi
    unfold decreaseIndent
    split
    · omega
    · simp only; omega

/-- After a short token the printer is on the page. -/
theorem column_token {t : List Char} {p : Printer} (hp : Ready w b p) (hw : w.isSome) (ht : utf8Len t ≤ 5) :
    (p.writeToken t).column ≤ 150 := by
  obtain ⟨W, rfl⟩ := Option.isSome_iff_exists.1 hw
  have hroom := hp.room W rfl
  have key : ∀ q : Printer, q.pageWidth = 150 → q.tabWidth = 4 → q.indent = p.indent → q.column ≤ 150 →
      ((if utf8Len t > q.pageWidth then
        if q.column > q.indentLength then (q.writeNewline.writeIndent).basic t else q.basic t
      else
        let q := if utf8Len t > q.pageWidth - q.column then q.writeNewline.writeIndent else q
        q.basic t) : Printer).column ≤ 150 := by
    intro q h1 h2 h3 h4
    rw [h1, if_neg (by omega)]
    dsimp only
    split
    · have e : (q.writeNewline.writeIndent).column ≤ 1 + q.indent * 4 := by
        unfold writeIndent
        split
        · simp [writeNewline]
        · simp only [basic, indentString, writeNewline, indentLength]
          rw [h2]
          have : ∀ n, utf8Len (List.replicate n ' ') = n := by
            intro n
            induction n with
            | zero => rfl
            | succ n ih => rw [List.replicate_succ]; simp only [utf8Len, List.map_cons, List.sum_cons] at ih ⊢; rw [ih]; simp [show (' ').utf8Size = 1 from by decide]; omega
          rw [this]
          omega
      simp only [basic]
      rw [h3] at e
      omega
    · simp only [basic]
      omega
  unfold writeToken
  by_cases h : p.column > p.pageWidth
  · rw [if_pos h]
    exact key p.writeNewline hp.page hp.tab rfl (by simp [writeNewline])
  · rw [if_neg h]
    exact key p hp.page hp.tab rfl (by rw [hp.page] at h; omega)

/-- After a space the printer is still on the page. -/
theorem column_space {p : Printer} (hp : Ready w b p) (hw : w.isSome) (hc : p.column ≤ 150) :
    p.writeSpace.column ≤ 150 := by
  obtain ⟨W, rfl⟩ := Option.isSome_iff_exists.1 hw
  have hroom := hp.room W rfl
  have s1 : utf8Len [' '] = 1 := by decide
  unfold writeSpace
  dsimp only
  split
  · have e : (p.writeNewline.writeIndent).column ≤ 1 + p.indent * 4 := by
      unfold writeIndent
      split
      · simp [writeNewline]
      · simp only [basic, indentString, writeNewline, indentLength]
        rw [hp.tab]
        have : ∀ n, utf8Len (List.replicate n ' ') = n := by
          intro n
          induction n with
          | zero => rfl
          | succ n ih => rw [List.replicate_succ]; simp only [utf8Len, List.map_cons, List.sum_cons] at ih ⊢; rw [ih]; simp [show (' ').utf8Size = 1 from by decide]; omega
        rw [this]
        omega
    simp only [basic, s1]
    omega
  · rw [hp.page] at *
    simp only [basic, s1]
    omega

/-- Running text with short words ends, on the page. -/
theorem fine_flow {p : Printer} (hp : Ready w b p) {t next : List Char} (ht : ShortWords w t)
    (hn : utf8Len next ≤ 5) (hc : p.column ≤ 150) :
    ∃ q, run checks [.flow t next] p = .ok q ∧ Kept w p q := by
  obtain ⟨W, rfl, hW⟩ := ht
  have hroom := hp.room W rfl
  have hl : p.indentLength = p.indent * 4 := by unfold indentLength; rw [hp.tab]
  obtain ⟨q, piece, pieces, h1, -, -, -, -, -, h2⟩ := C46_flowable_partial checks t next p (by rw [hp.page]; exact hc)
    (by rw [hl, hp.page]; omega) fun x hx => by
      have := hW x hx
      unfold room
      rw [hl, hp.page]
      omega
  refine ⟨q, by simp only [run, exec, h1], ?_⟩
  exact (exec_writes (op := .flow t next) (checks := checks) h1 ⟨rfl, by simp⟩).kept

/-- A short token and then running text with short words. -/
theorem Fine.tokenFlow {t next : List Char} {u : List Char} (hu : utf8Len u ≤ 5) (ht : ShortWords w t)
    (hn : utf8Len next ≤ 5) : Fine checks w b [.token u, .flow t next] := by
  intro p hp
  have hw : w.isSome := by obtain ⟨W, rfl, _⟩ := ht; rfl
  have k : Kept w p (p.writeToken u) := (sameLayout_writeToken u p).kept
  obtain ⟨q, h1, h2⟩ := fine_flow (checks := checks) (hp.kept k) ht hn (column_token hp hw hu)
  exact ⟨q, by rw [← h1]; rfl, k.trans h2⟩

/-- A short token, a space, and then running text with short words. -/
theorem Fine.tokenSpaceFlow {t next : List Char} {u : List Char} (hu : utf8Len u ≤ 5) (ht : ShortWords w t)
    (hn : utf8Len next ≤ 5) : Fine checks w b [.token u, .space, .flow t next] := by
  intro p hp
  have hw : w.isSome := by obtain ⟨W, rfl, _⟩ := ht; rfl
  have k : Kept w p (p.writeToken u) := (sameLayout_writeToken u p).kept
  have k' : Kept w (p.writeToken u) (p.writeToken u).writeSpace := (sameLayout_writeSpace _).kept
  obtain ⟨q, h1, h2⟩ := fine_flow (checks := checks) ((hp.kept k).kept k') ht hn
    (column_space (hp.kept k) hw (column_token hp hw hu))
  exact ⟨q, by rw [← h1]; rfl, (k.trans k').trans h2⟩

/-- The printer that the tool begins with. -/
theorem ready_new {W : Option Nat} (h : RoomFor W b) : Ready W b (Printer.new 4 150) :=
  ⟨rfl, rfl, rfl, fun V hV => by have := h V hV; simp only [Printer.new]; omega⟩

end Printer

/-! ### Pieces that end -/

namespace NodePrinter

open Printer

variable {σ : Type}

/-- The calls that the pieces stand for end. -/
def FineP (checks : Bool) (print : σ → Json → List Op) (w : Option Nat) (b : Nat) (ps : List (Piece σ)) : Prop :=
  Fine checks w b (expand checks print ps)

/-- Every proper part of the node is printed without trouble, given room for `K` levels. -/
def Kids (checks : Bool) (print : σ → Json → List Op) (w : Option Nat) (K : Nat) (n : Json) : Prop :=
  ∀ m, Json.Inside m n → ∀ s, Fine checks w K (print s m)

/-- The same for the node itself. -/
def Kid (checks : Bool) (print : σ → Json → List Op) (w : Option Nat) (K : Nat) (n : Json) : Prop :=
  (∀ s, Fine checks w K (print s n)) ∧ Kids checks print w K n

variable {checks : Bool} {print : σ → Json → List Op} {w : Option Nat} {K b : Nat} {s : σ} {node : Json}

theorem Kids.kid {n m : Json} (h : Kids checks print w K n) (hm : Json.Inside m n) : Kid checks print w K m :=
  ⟨h m hm, fun x hx => h x (hx.trans hm)⟩

theorem fine_nil : FineP checks print w b [] := Fine.nil

theorem fine_append {x y : List (Piece σ)} (hx : FineP checks print w b x) (hy : FineP checks print w b y) :
    FineP checks print w b (x ++ y) := by
  unfold FineP
  rw [expand_append]
  exact hx.append hy

theorem fine_op {o : Op} (h : ∀ p, ∃ q, exec checks o p = .ok q)
    (hc : change o = 0 ∧ ∀ n, o ≠ .incrBy n ∧ o ≠ .decrBy n) : FineP checks print w b [.op o] := Fine.one h hc

theorem fine_token {t : List Char} : FineP checks print w b [.op (.token t)] :=
  fine_op (fun _ => ⟨_, rfl⟩) ⟨rfl, by simp⟩
theorem fine_tok {t : String} : FineP checks print w b (tok t) := fine_token
theorem fine_string {t : List Char} : FineP checks print w b [.op (.string t)] :=
  fine_op (fun _ => ⟨_, rfl⟩) ⟨rfl, by simp⟩
theorem fine_triple {t : List Char} : FineP checks print w b [.op (.triple t)] :=
  fine_op (fun _ => ⟨_, rfl⟩) ⟨rfl, by simp⟩
theorem fine_sp : FineP checks print w b sp := fine_op (fun _ => ⟨_, rfl⟩) ⟨rfl, by simp⟩
theorem fine_nl : FineP checks print w b nl := fine_op (fun _ => ⟨_, rfl⟩) ⟨rfl, by simp⟩
theorem fine_ind : FineP checks print w b ind := fine_op (fun _ => ⟨_, rfl⟩) ⟨rfl, by simp⟩

theorem fine_sub {n : Json} (h : Kid checks print w K n) (hb : K ≤ b) : FineP checks print w b [.sub s n] := by
  unfold FineP
  simp only [expand, List.append_nil]
  exact (h.1 s).mono hb

theorem fine_indented {x : List (Piece σ)} (h : FineP checks print w K x) (hb : K + 1 ≤ b) :
    FineP checks print w b (inc ++ x ++ dec) := by
  unfold FineP
  rw [expand_append, expand_append]
  exact h.indented.mono hb

theorem fine_ite {c : Prop} [Decidable c] {x y : List (Piece σ)} (hx : c → FineP checks print w b x)
    (hy : ¬c → FineP checks print w b y) : FineP checks print w b (if c then x else y) := by
  split
  · exact hx ‹_›
  · exact hy ‹_›

theorem fine_when {c : Bool} {x : List (Piece σ)} (hx : c = true → FineP checks print w b x) :
    FineP checks print w b (when c x) := fine_ite hx fun _ => fine_nil

theorem fine_onSome {α : Type} {o : Option α} {f : α → List (Piece σ)}
    (h : ∀ a, o = some a → FineP checks print w b (f a)) : FineP checks print w b (onSome o f) := by
  cases o with
  | none => exact fine_nil
  | some a => exact h a rfl

theorem fine_onField {key : String} {f : Json → List (Piece σ)} (hk : Kids checks print w K node)
    (h : ∀ v, Json.field? key node = some v → Kid checks print w K v → FineP checks print w b (f v)) :
    FineP checks print w b (onField key node f) :=
  fine_onSome fun v hv => h v hv (hk.kid (Json.inside_field hv))

theorem fine_field {key : String} (hk : Kids checks print w K node) (hb : K ≤ b) :
    FineP checks print w b (field s key node) := fine_onField hk fun _ _ hv => fine_sub hv hb

theorem asArray_some {v : Json} {xs : List Json} (h : v.asArray = some xs) : v = .arr xs := by
  cases v <;> simp_all [Json.asArray]

theorem fine_onArray {key : String} {f : List Json → List (Piece σ)} (hk : Kids checks print w K node)
    (h : ∀ xs, Json.field? key node = some (.arr xs) → (∀ x ∈ xs, Kid checks print w K x) →
      FineP checks print w b (f xs)) : FineP checks print w b (onArray key node f) :=
  fine_onField hk fun v hv hkv => fine_onSome fun xs hxs => by
    have e := asArray_some hxs
    subst e
    exact h xs hv fun x hx => hkv.2.kid (Json.inside_elem hx)

theorem fine_onGetArray {key : String} {f : List Json → List (Piece σ)} (hk : Kids checks print w K node)
    (h : ∀ xs, node.getArrayForKey key = some xs → (∀ x ∈ xs, Kid checks print w K x) →
      FineP checks print w b (f xs)) : FineP checks print w b (onSome (node.getArrayForKey key) f) :=
  fine_onSome fun xs hxs => h xs hxs fun _ hx => hk.kid (Json.inside_getArray hxs hx)

theorem fine_onStr {key : String} {f : String → List (Piece σ)}
    (h : ∀ t, node.getStrForKey key = some t → FineP checks print w b (f t)) :
    FineP checks print w b (onStr key node f) := fine_onSome h

theorem fine_strTok {key : String} : FineP checks print w b (strTok key node) := fine_onStr fun _ _ => fine_tok

theorem fine_arrayLoop {f : Json → List (Piece σ)} {between : List (Piece σ)} {len : Nat}
    (hb : FineP checks print w b between) : (i : Nat) → (xs : List Json) → (∀ x ∈ xs, FineP checks print w b (f x)) →
    FineP checks print w b (arrayLoop f between len i xs)
  | _, [], _ => fine_nil
  | i, x :: xs, h => fine_append (h x (List.mem_cons_self ..)) (fine_append (fine_when fun _ => hb)
      (fine_arrayLoop hb (i + 1) xs fun y hy => h y (List.mem_cons_of_mem _ hy)))

theorem fine_arrayWith {f : Json → List (Piece σ)} {between : List (Piece σ)} {xs : List Json}
    (hb : FineP checks print w b between) (h : ∀ x ∈ xs, FineP checks print w b (f x)) :
    FineP checks print w b (arrayWith f between xs) := fine_arrayLoop hb 0 xs h

theorem fine_array {xs : List Json} (h : ∀ x ∈ xs, Kid checks print w K x) (hb : K ≤ b) :
    FineP checks print w b (array s xs) :=
  fine_arrayWith (fine_append fine_tok fine_sp) fun x hx => fine_sub (h x hx) hb

theorem fine_flatMap {α : Type} {xs : List α} {f : α → List (Piece σ)} (h : ∀ x ∈ xs, FineP checks print w b (f x)) :
    FineP checks print w b (xs.flatMap f) := by
  induction xs with
  | nil => exact fine_nil
  | cons x xs ih =>
    rw [List.flatMap_cons]
    exact fine_append (h x (List.mem_cons_self ..)) (ih fun y hy => h y (List.mem_cons_of_mem _ hy))

theorem fine_tokFlow {u : String} {t next : List Char} (hu : utf8Len u.toList ≤ 5) (ht : ShortWords w t)
    (hn : utf8Len next ≤ 5) : FineP checks print w b (tok u ++ [.op (.flow t next)]) := Fine.tokenFlow hu ht hn

theorem fine_tokSpFlow {u : String} {t next : List Char} (hu : utf8Len u.toList ≤ 5) (ht : ShortWords w t)
    (hn : utf8Len next ≤ 5) : FineP checks print w b (tok u ++ sp ++ [.op (.flow t next)]) :=
  Fine.tokenSpaceFlow hu ht hn

/-- A quoted node with short words. -/
theorem fine_quote {u : String} {n : Json} {next : List Char} (h : Kid checks print w K n) (hb : K ≤ b)
    (hu : utf8Len u.toList ≤ 5) (hn : utf8Len next ≤ 5)
    (ht : ∀ s p, run checks (print s n) (Printer.new 4 150) = .ok p → ShortWords w p.out) :
    FineP checks print w b (tok u ++ sp ++ [.quote s n next]) := by
  intro p hp
  have hr : RoomFor w K := fun W hW => by have := hp.room W hW; omega
  obtain ⟨q, hq, _⟩ := h.1 s (Printer.new 4 150) (ready_new hr)
  have e : expand checks print (tok u ++ sp ++ [.quote s n next]) = [.token u.toList, .space, .flow q.out next] := by
    simp only [tok, sp, List.cons_append, List.nil_append, expand, hq]
  rw [e]
  exact Fine.tokenSpaceFlow hu (ht s q hq) hn p hp

/-- A node printer whose calls end. -/
def FineLayout (checks : Bool) (print : σ → Json → List Op) (w : Option Nat) (b : Nat) (l : Layout σ) : Prop :=
  ∀ inner, FineP checks print w b inner → FineP checks print w b (around l inner)

theorem fineLayout_ite {c : Prop} [Decidable c] {x y : Layout σ} (hx : c → FineLayout checks print w b x)
    (hy : ¬c → FineLayout checks print w b y) : FineLayout checks print w b (if c then x else y) := by
  split
  · exact hx ‹_›
  · exact hy ‹_›

theorem fineLayout_of {l : Layout σ} (h1 : FineP checks print w b l.entry) (h2 : FineP checks print w b l.body)
    (h3 : FineP checks print w b l.exit) : FineLayout checks print w b l := fun _ hi =>
  fine_append h1 (fine_append h2 (fine_append (fine_ite (fun _ => hi) fun _ => fine_nil) h3))

/-- If the printer of every node does its work when those of the parts do, then printing ends. -/
theorem fine_ops {pf : σ → Json → Layout σ} (hg : GoodPrinter pf) {c : Json → Bool} {Ok : Json → Prop}
    (hc : ∀ n, c n = true → 1 ≤ Json.nest c n)
    (h : ∀ s n K b, Ok n → Kids checks (ops checks pf) w K n → K ≤ b → (c n = true → K + 1 ≤ b) →
      FineLayout checks (ops checks pf) w b (pf s n)) :
    ∀ n, (∀ m, Json.Within m n → Ok m) → ∀ s, Fine checks w (Json.nest c n) (ops checks pf s n) := by
  have key : ∀ k n, depth n ≤ k → (∀ m, Json.Within m n → Ok m) → ∀ s,
      Fine checks w (Json.nest c n) (ops checks pf s n) := by
    intro k
    induction k with
    | zero =>
      intro n hn ho s
      have hk : Kids checks (ops checks pf) w (Json.nest c n - 1) n := fun m hm => absurd hm.depth_lt (by omega)
      rw [ops_eq hg, pieces_eq]
      refine h s n _ _ (ho n (.refl n)) hk (by omega) (fun h1 => by have := hc n h1; omega) _ (fine_flatMap fun x hx => ?_)
      exact absurd (depth_children hx) (by omega)
    | succ k ih =>
      intro n hn ho s
      have hin : ∀ m, Json.Inside m n → ∀ s, Fine checks w (Json.nest c m) (ops checks pf s m) := fun m hm =>
        ih m (by have := hm.depth_lt; omega) fun x hx => ho x (hx.trans hm.within)
      have hk : Kids checks (ops checks pf) w (Json.nest c n - if c n then 1 else 0) n := fun m hm s =>
        (hin m hm s).mono (by have := Json.nest_inside (c := c) hm; omega)
      rw [ops_eq hg, pieces_eq]
      refine h s n _ _ (ho n (.refl n)) hk (by omega) (fun h1 => by have := hc n h1; rw [h1, if_pos rfl]; omega) _
        (fine_flatMap fun x hx => ?_)
      have hx' := Json.inside_child hx
      unfold FineP
      rw [← ops_eq hg]
      exact (hin x hx' s).mono (Json.nest_within hx'.within)
  exact fun n => key _ n (Nat.le_refl _)

theorem nest_pos {key : String} {c : Json → Bool} {n : Json} (h : c n = true) (ht : (n.getStrForKey key).isSome) :
    1 ≤ Json.nest c n := by
  unfold Json.getStrForKey at ht
  cases hg : Json.get? key n with
  | none => rw [hg] at ht; cases ht
  | some v =>
    have := Json.nest_inside (c := c) (Json.inside_get hg)
    rw [h, if_pos rfl] at this
    omega

/-! ### Tactics -/

/-- Take a list of pieces apart into the cases of `FineP`. -/
macro "fine_step" : tactic => `(tactic| with_reducible first
  | assumption
  | exact Nat.le_refl _
  | exact fine_tok | exact fine_sp | exact fine_nl | exact fine_ind | exact fine_strTok
  | exact fine_nil | exact fine_string | exact fine_triple | exact fine_token
  | exact fine_field ‹Kids _ _ _ _ _› ‹_› | exact fine_field ‹Kids _ _ _ _ _› (Nat.le_refl _)
  | exact fine_sub ‹_› ‹_› | exact fine_sub ‹_› (Nat.le_refl _)
  | exact fine_array ‹_› ‹_› | exact fine_array ‹_› (Nat.le_refl _)
  | (refine fine_indented ?_ ‹_›)
  | (refine fine_when fun _ => ?_)
  | (refine fine_ite (fun _ => ?_) (fun _ => ?_))
  | apply fine_append
  | (refine fine_onArray ‹Kids _ _ _ _ _› fun xs hxs hkx => ?_)
  | (refine fine_onGetArray ‹Kids _ _ _ _ _› fun xs hxs hkx => ?_)
  | (refine fine_onField ‹Kids _ _ _ _ _› fun n hn hkn => ?_)
  | (refine fine_onStr fun t ht => ?_)
  | (refine fine_onSome fun a ha => ?_)
  | (refine fine_flatMap fun x hx => ?_; try have hx' := ‹∀ x ∈ _, Kid _ _ _ _ x› x hx)
  | (refine fine_arrayWith ?_ fun x hx => ?_; rotate_left; try have hx' := ‹∀ x ∈ _, Kid _ _ _ _ x› x hx))

/-- Prove that the calls that pieces stand for end. -/
macro "fine" : tactic => `(tactic| repeat' fine_step)

end NodePrinter
end Mutagenyx
