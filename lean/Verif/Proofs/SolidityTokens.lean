import Verif.Spec.SolidityMutation

/-!
# What changes of a Solidity program do to its tokens
-/

namespace Mutagenyx
namespace SolTokens
open SolGrammar

variable {r : List String → List String → Prop} {x y xs ys : List String}

theorem within_here (h : r x y) : Within r x y := ⟨[], x, y, [], by simp, by simp, h⟩

theorem _root_.Mutagenyx.SolGrammar.Within.ctx (h : Within r x y) (p s : List String) (hx : xs = p ++ (x ++ s)) (hy : ys = p ++ (y ++ s)) : Within r xs ys := by
  obtain ⟨pre, u, v, post, rfl, rfl, h⟩ := h
  exact ⟨p ++ pre, u, v, post ++ s, by simp [hx], by simp [hy], h⟩

/-! ### Lists -/

theorem sepBy_hole (t : String) (post : List (List String)) : (pre : List (List String)) →
    ∃ p s, ∀ x, sepBy t (pre ++ x :: post) = p ++ (x ++ s)
  | [] => by
    cases post with
    | nil => exact ⟨[], [], fun x => by simp [sepBy]⟩
    | cons y ys => exact ⟨[], t :: sepBy t (y :: ys), fun x => by simp [sepBy]⟩
  | [y] => by
    obtain ⟨p, s, h⟩ := sepBy_hole t post []
    exact ⟨y ++ t :: p, s, fun x => by
      have := h x
      simp only [List.nil_append] at this
      simp [sepBy, this]⟩
  | y :: z :: pre => by
    obtain ⟨p, s, h⟩ := sepBy_hole t post (z :: pre)
    exact ⟨y ++ t :: p, s, fun x => by
      have := h x
      simp only [List.cons_append] at this
      simp [sepBy, this]⟩

theorem strRest_append : (xs ys : List Expr) → strRest (xs ++ ys) = strRest xs ++ strRest ys
  | [], ys => by simp [strRest]
  | x :: xs, ys => by simp [strRest, strRest_append xs ys]

theorem strArgs_hole (post : List Expr) : (pre : List Expr) → ∃ p s, ∀ e, strArgs (pre ++ e :: post) = p ++ (strE e ++ s)
  | [] => ⟨[], strRest post, fun e => by simp [strArgs]⟩
  | x :: pre => ⟨strE x ++ (strRest pre ++ [","]), strRest post, fun e => by simp [strArgs, strRest_append, strRest]⟩

theorem strArgs_holes (mid post : List Expr) : (pre : List Expr) → ∃ p m s, ∀ a b,
    strArgs (pre ++ a :: (mid ++ b :: post)) = p ++ (strE a ++ (m ++ (strE b ++ s)))
  | [] => ⟨[], strRest mid ++ [","], strRest post, fun a b => by simp [strArgs, strRest_append, strRest]⟩
  | x :: pre => ⟨strE x ++ (strRest pre ++ [","]), strRest mid ++ [","], strRest post, fun a b => by
      simp [strArgs, strRest_append, strRest]⟩

theorem strNamedRest_hole (post : List Expr) : (pre : List Expr) → (ns : List String) → pre.length < ns.length →
    ∃ p s, ∀ e, strNamedRest ns (pre ++ e :: post) = p ++ (strE e ++ s)
  | [], n :: ns, _ => ⟨[",", n, ":"], strNamedRest ns post, fun e => by simp [strNamedRest]⟩
  | x :: pre, n :: ns, h => by
    obtain ⟨p, s, h'⟩ := strNamedRest_hole post pre ns (by simpa using h)
    exact ⟨"," :: n :: ":" :: (strE x ++ p), s, fun e => by simp [strNamedRest, h']⟩

theorem strNamedRest_holes (mid post : List Expr) : (pre : List Expr) → (ns : List String) →
    pre.length + 1 + mid.length < ns.length →
    ∃ p m s, ∀ a b, strNamedRest ns (pre ++ a :: (mid ++ b :: post)) = p ++ (strE a ++ (m ++ (strE b ++ s)))
  | [], n :: ns, h => by
    obtain ⟨p, s, h'⟩ := strNamedRest_hole post mid ns (by simp at h; omega)
    exact ⟨[",", n, ":"], p, s, fun a b => by simp [strNamedRest, h']⟩
  | x :: pre, n :: ns, h => by
    obtain ⟨p, m, s, h'⟩ := strNamedRest_holes mid post pre ns (by simp at h; omega)
    exact ⟨"," :: n :: ":" :: (strE x ++ p), m, s, fun a b => by simp [strNamedRest, h']⟩

theorem strNamed_hole {pre post : List Expr} {ns : List String} (h : pre.length < ns.length) :
    ∃ p s, ∀ e, strNamed ns (pre ++ e :: post) = p ++ (strE e ++ s) := by
  cases ns with
  | nil => simp at h
  | cons n ns =>
    cases pre with
    | nil => exact ⟨[n, ":"], strNamedRest ns post, fun e => by simp [strNamed]⟩
    | cons x pre =>
      obtain ⟨p, s, h'⟩ := strNamedRest_hole post pre ns (by simpa using h)
      exact ⟨n :: ":" :: (strE x ++ p), s, fun e => by simp [strNamed, h']⟩

theorem strNamed_holes {pre mid post : List Expr} {ns : List String} (h : pre.length + 1 + mid.length < ns.length) :
    ∃ p m s, ∀ a b, strNamed ns (pre ++ a :: (mid ++ b :: post)) = p ++ (strE a ++ (m ++ (strE b ++ s))) := by
  cases ns with
  | nil => simp at h
  | cons n ns =>
    cases pre with
    | nil =>
      obtain ⟨p, s, h'⟩ := strNamedRest_hole post mid ns (by simp at h; omega)
      exact ⟨[n, ":"], p, s, fun a b => by simp [strNamed, h']⟩
    | cons x pre =>
      obtain ⟨p, m, s, h'⟩ := strNamedRest_holes mid post pre ns (by simp at h; omega)
      exact ⟨n :: ":" :: (strE x ++ p), m, s, fun a b => by simp [strNamed, h']⟩

theorem stmtsToks_append : (xs ys : List Stmt) → stmtsToks (xs ++ ys) = stmtsToks xs ++ stmtsToks ys
  | [], ys => by simp [stmtsToks]
  | x :: xs, ys => by simp [stmtsToks, stmtsToks_append xs ys]

theorem catchToks_append : (xs ys : List Stmt) → catchToks (xs ++ ys) = catchToks xs ++ catchToks ys
  | [], ys => by simp [catchToks]
  | x :: xs, ys => by simp [catchToks, catchToks_append xs ys]

/-! ### The change at one place -/

/-- An expression, or none. -/
def Legible' (e : Expr) : Prop := e = .hole ∨ Legible e

theorem legibleAll_mem {e : Expr} : {es : List Expr} → LegibleAll es → e ∈ es → Legible e
  | x :: xs, h, hm => by
    simp only [LegibleAll] at h
    rcases List.mem_cons.1 hm with rfl | hm
    · exact h.1
    · exact legibleAll_mem h.2 hm

theorem legiblePlaces_mem {e : Expr} : {es : List Expr} → LegiblePlaces es → e ∈ es → Legible' e
  | x :: xs, h, hm => by
    simp only [LegiblePlaces] at h
    rcases List.mem_cons.1 hm with rfl | hm
    · exact h.1
    · exact legiblePlaces_mem h.2 hm

variable {c : Change}

/-- What the change does to tokens. -/
structure OnTokens (c : Change) (r : List String → List String → Prop) : Prop where
  expr : ∀ e e', Legible' e → c.expr e e' → Within r (strE e) (strE e')
  stmt : ∀ s s', c.stmt s s' → Within r s.toks s'.toks
  contract : ∀ k k', c.contract k k' → Within r k.toks k'.toks

/-- Changes of no expressions. -/
def NoExpr (c : Change) : Prop := ∀ e e', ¬ c.expr e e'

theorem noInExpr (h : NoExpr c) {e e' : Expr} : ¬ InExpr c e e' := by
  intro hi
  induction hi with
  | here h' => exact h _ _ h'
  | _ => assumption

theorem within_expr (O : OnTokens c r) {e e' : Expr} (h : InExpr c e e') (hl : Legible' e) : Within r (strE e) (strE e') := by
  induction h with
  | here h => exact O.expr _ _ hl h
  | @place e e' pre post _ ih =>
    rcases hl with hl | hl
    · cases hl
    · simp only [Legible] at hl
      obtain ⟨p, s, h⟩ := strArgs_hole post pre
      exact (ih (legiblePlaces_mem hl.2 (by simp))).ctx ("(" :: p) (s ++ [")"]) (by simp [strE, h]) (by simp [strE, h])
  | paren _ ih =>
    rcases hl with hl | hl
    · cases hl
    · simp only [Legible] at hl
      exact (ih (.inr hl)).ctx ["("] [")"] (by simp [strE]) (by simp [strE])
  | @member e e' id _ ih =>
    rcases hl with hl | hl
    · cases hl
    · simp only [Legible] at hl
      exact (ih (.inr hl.2.2)).ctx [] [".", id] (by simp [strE]) (by simp [strE])
  | @indexed e e' i _ ih =>
    rcases hl with hl | hl
    · cases hl
    · simp only [Legible] at hl
      exact (ih (.inr hl.2.1)).ctx [] ("[" :: (strE i ++ ["]"])) (by simp [strE]) (by simp [strE])
  | @index a e e' _ ih =>
    rcases hl with hl | hl
    · cases hl
    · simp only [Legible] at hl
      exact (ih (.inr hl.2.2)).ctx (strE a ++ ["["]) ["]"] (by simp [strE]) (by simp [strE])
  | emptyIndexed _ ih =>
    rcases hl with hl | hl
    · cases hl
    · simp only [Legible] at hl
      exact (ih (.inr hl.2)).ctx [] ["[", "]"] (by simp [strE]) (by simp [strE])
  | @called e e' args _ ih =>
    rcases hl with hl | hl
    · cases hl
    · simp only [Legible] at hl
      exact (ih (.inr hl.2.1)).ctx [] ("(" :: (strArgs args ++ [")"])) (by simp [strE]) (by simp [strE])
  | @argument f e e' pre post _ ih =>
    rcases hl with hl | hl
    · cases hl
    · simp only [Legible] at hl
      obtain ⟨p, s, h⟩ := strArgs_hole post pre
      exact (ih (.inr (legibleAll_mem hl.2.2 (by simp)))).ctx (strE f ++ ("(" :: p)) (s ++ [")"]) (by simp [strE, h]) (by simp [strE, h])
  | @calledNamed e e' ns args _ ih =>
    rcases hl with hl | hl
    · cases hl
    · simp only [Legible] at hl
      exact (ih (.inr hl.2.2.2.2.1)).ctx [] ("(" :: "{" :: (strNamed ns args ++ ["}", ")"])) (by simp [strE]) (by simp [strE])
  | @argumentNamed f ns e e' pre post _ ih =>
    rcases hl with hl | hl
    · cases hl
    · simp only [Legible] at hl
      obtain ⟨p, s, h⟩ := strNamed_hole (pre := pre) (post := post) (ns := ns) (by rw [hl.2.2.1]; simp)
      exact (ih (.inr (legibleAll_mem hl.2.2.2.2.2 (by simp)))).ctx (strE f ++ ("(" :: "{" :: p)) (s ++ ["}", ")"])
        (by simp [strE, h]) (by simp [strE, h])
  | @calledWith e e' ns args _ ih =>
    rcases hl with hl | hl
    · cases hl
    · simp only [Legible] at hl
      exact (ih (.inr hl.2.2.2.2.1)).ctx [] ("{" :: (strNamed ns args ++ ["}"])) (by simp [strE]) (by simp [strE])
  | @option f ns e e' pre post _ ih =>
    rcases hl with hl | hl
    · cases hl
    · simp only [Legible] at hl
      obtain ⟨p, s, h⟩ := strNamed_hole (pre := pre) (post := post) (ns := ns) (by rw [hl.2.2.1]; simp)
      exact (ih (.inr (legibleAll_mem hl.2.2.2.2.2 (by simp)))).ctx (strE f ++ ("{" :: p)) (s ++ ["}"])
        (by simp [strE, h]) (by simp [strE, h])
  | @post e e' u _ ih =>
    rcases hl with hl | hl
    · cases hl
    · simp only [Legible] at hl
      exact (ih (.inr hl.2)).ctx [] [u.text] (by simp [strE]) (by simp [strE])
  | @pre u e e' _ ih =>
    rcases hl with hl | hl
    · cases hl
    · simp only [Legible] at hl
      exact (ih (.inr hl.2)).ctx [u.text] [] (by simp [strE]) (by simp [strE])
  | @left e e' o rr _ ih =>
    rcases hl with hl | hl
    · cases hl
    · simp only [Legible] at hl
      exact (ih (.inr hl.1)).ctx [] (o.text :: strE rr) (by simp [strE]) (by simp [strE])
  | @right l o e e' _ ih =>
    rcases hl with hl | hl
    · cases hl
    · simp only [Legible] at hl
      exact (ih (.inr hl.2)).ctx (strE l ++ [o.text]) [] (by simp [strE]) (by simp [strE])
  | @condition e e' a b _ ih =>
    rcases hl with hl | hl
    · cases hl
    · simp only [Legible] at hl
      exact (ih (.inr hl.1)).ctx [] ("?" :: (strE a ++ (":" :: strE b))) (by simp [strE]) (by simp [strE])
  | @ifTrue x e e' b _ ih =>
    rcases hl with hl | hl
    · cases hl
    · simp only [Legible] at hl
      exact (ih (.inr hl.2.1)).ctx (strE x ++ ["?"]) (":" :: strE b) (by simp [strE]) (by simp [strE])
  | @ifFalse x a e e' _ ih =>
    rcases hl with hl | hl
    · cases hl
    · simp only [Legible] at hl
      exact (ih (.inr hl.2.2)).ctx (strE x ++ ("?" :: (strE a ++ [":"]))) [] (by simp [strE]) (by simp [strE])

/-- The expression is legible, if expressions can change at all. -/
def Can (c : Change) (p : Prop) : Prop := NoExpr c ∨ p

theorem within_can (O : OnTokens c r) {e e' : Expr} (h : InExpr c e e') (hl : Can c (Legible e)) : Within r (strE e) (strE e') := by
  rcases hl with hl | hl
  · exact absurd h (noInExpr hl)
  · exact within_expr O h (.inr hl)

theorem Can.to {p q : Prop} (h : Can c p) (hpq : p → q) : Can c q := h.imp_right hpq

theorem within_ty (O : OnTokens c r) {t t' : Ty} (h : InTy c t t') (hp : Can c t.Plain) : Within r t.toks t'.toks := by
  induction h with
  | @key t t' v _ ih => exact (ih (hp.to fun h => h.1)).ctx ["mapping", "("] ("=>" :: (v.toks ++ [")"])) (by simp [Ty.toks]) (by simp [Ty.toks])
  | @value k t t' _ ih =>
    exact (ih (hp.to fun h => h.2)).ctx ("mapping" :: "(" :: (k.toks ++ ["=>"])) [")"] (by simp [Ty.toks]) (by simp [Ty.toks])
  | array _ ih => exact (ih (hp.to fun h => h)).ctx [] ["[", "]"] (by simp [Ty.toks]) (by simp [Ty.toks])
  | @fixed t t' n _ ih => exact (ih (hp.to fun h => h.1)).ctx [] ("[" :: (strE n ++ ["]"])) (by simp [Ty.toks]) (by simp [Ty.toks])
  | @length t e e' h =>
    exact (within_can O h (hp.to fun h => h.2)).ctx (t.toks ++ ["["]) ["]"] (by simp [Ty.toks]) (by simp [Ty.toks])

theorem within_value (O : OnTokens c r) {e e' : Option Expr} (h : InSome (InExpr c) e e') (hp : Can c (PlainOpt e)) :
    Within r (valueToks e) (valueToks e') := by
  cases h with
  | mk h => exact (within_can O h (hp.to fun h => h _ rfl)).ctx ["="] [] (by simp [valueToks]) (by simp [valueToks])

theorem within_var (O : OnTokens c r) {v v' : Var} (h : InVar c v v') (hp : Can c v.Plain) : Within r v.toks v'.toks := by
  cases h with
  | type h =>
    exact (within_ty O h (hp.to fun h => h.type)).ctx [] (v.visibility.toList ++ flag v.constant "constant" ++ flag v.indexed "indexed" ++
      flag v.immutable "immutable" ++ v.location.toList ++ v.name.toList ++ valueToks v.value) (by simp [Var.toks]) (by simp [Var.toks])
  | value h =>
    exact (within_value O h (hp.to fun h => h.value)).ctx (v.type.toks ++ v.visibility.toList ++ flag v.constant "constant" ++
      flag v.indexed "indexed" ++ flag v.immutable "immutable" ++ v.location.toList ++ v.name.toList) [] (by simp [Var.toks]) (by simp [Var.toks])

theorem within_params (O : OnTokens c r) {vs vs' : List Var} (h : InList (InVar c) vs vs') (hp : Can c (∀ v ∈ vs, v.Plain)) :
    Within r (paramsToks vs) (paramsToks vs') := by
  cases h with
  | @mk v v' pre post h =>
    obtain ⟨p, s, hs⟩ := sepBy_hole "," (post.map Var.toks) (pre.map Var.toks)
    exact (within_var O h (hp.to fun h => h v (by simp))).ctx ("(" :: p) (s ++ [")"]) (by simp [paramsToks, hs]) (by simp [paramsToks, hs])

theorem within_returns (O : OnTokens c r) {vs vs' : List Var} (h : InList (InVar c) vs vs') (hp : Can c (∀ v ∈ vs, v.Plain)) :
    Within r (returnsToks vs) (returnsToks vs') := by
  have hw := within_params O h hp
  have key : ∀ ws : List Var, ws ≠ [] → returnsToks ws = "returns" :: paramsToks ws := by
    intro ws hws
    cases ws with
    | nil => exact absurd rfl hws
    | cons => rfl
  cases h with
  | mk h => exact hw.ctx ["returns"] [] (by rw [key _ (by simp)]; simp) (by rw [key _ (by simp)]; simp)

theorem within_decl (O : OnTokens c r) {vs vs' : List (Option Var)} (h : InList (InSome (InVar c)) vs vs')
    (hp : Can c (∀ v, some v ∈ vs → v.Plain)) : Within r (declToks vs) (declToks vs') := by
  cases h with
  | @mk v v' pre post h =>
    cases h with
    | @mk v v' h =>
      have hw := within_var O h (hp.to fun h => h v (by simp))
      have key : ∀ w : Var, (pre ≠ [] ∨ post ≠ []) → declToks (pre ++ some w :: post) =
          "(" :: (sepBy "," ((pre ++ some w :: post).map fun v => (v.map Var.toks).getD []) ++ [")"]) := by
        intro w hne
        unfold declToks
        split
        · rename_i heq
          exfalso
          have := congrArg List.length heq
          simp at this
          rcases hne with hne | hne
          · exact hne (List.eq_nil_of_length_eq_zero (by omega))
          · exact hne (List.eq_nil_of_length_eq_zero (by omega))
        · rfl
      by_cases hne : pre ≠ [] ∨ post ≠ []
      · rw [key v hne, key v' hne]
        obtain ⟨p, s, hs⟩ := sepBy_hole "," (post.map fun v => (v.map Var.toks).getD []) (pre.map fun v => (v.map Var.toks).getD [])
        exact hw.ctx ("(" :: p) (s ++ [")"]) (by simp [hs]) (by simp [hs])
      · have h1 : pre = [] := Classical.byContradiction fun h => hne (.inl h)
        have h2 : post = [] := Classical.byContradiction fun h => hne (.inr h)
        subst h1 h2
        exact hw

/-- The statement is plain or a comment. -/
def Plain' (s : Stmt) : Prop := s.Plain true ∨ ∃ t, s = .comment t

theorem stmtsPlain_mem {s : Stmt} : {ss : List Stmt} → stmtsPlain true ss → s ∈ ss → Plain' s
  | x :: xs, h, hm => by
    have h' : Plain' x ∧ stmtsPlain true xs := by
      cases x with
      | comment t => simp only [stmtsPlain] at h; exact ⟨.inr ⟨t, rfl⟩, h.2⟩
      | _ => simp only [stmtsPlain] at h; exact ⟨.inl h.1, h.2⟩
    rcases List.mem_cons.1 hm with rfl | hm
    · exact h'.1
    · exact stmtsPlain_mem h'.2 hm

theorem clausesPlain_mem {s : Stmt} : {ss : List Stmt} → clausesPlain true ss → s ∈ ss → s.Plain true
  | x :: xs, h, hm => by
    simp only [clausesPlain] at h
    rcases List.mem_cons.1 hm with rfl | hm
    · exact h.1
    · exact clausesPlain_mem h.2 hm

/-- Not a comment. -/
theorem plain_of {s : Stmt} (h : Plain' s) (hs : ∀ t, s ≠ .comment t) : s.Plain true := by
  rcases h with h | ⟨t, h⟩
  · exact h
  · exact absurd h (hs t)

theorem within_stmt (O : OnTokens c r) {s s' : Stmt} (h : InStmt c s s') (hp : Can c (Plain' s)) : Within r s.toks s'.toks := by
  induction h with
  | here h => exact O.stmt _ _ h
  | expr h =>
    have hp := hp.to fun h => plain_of h (by simp)
    simp only [Stmt.Plain] at hp
    exact (within_can O h hp).ctx [] [";"] (by simp [Stmt.toks]) (by simp [Stmt.toks])
  | @declared vs vs' value h =>
    have hp := hp.to fun h => plain_of h (by simp)
    simp only [Stmt.Plain] at hp
    exact (within_decl O h (hp.to fun h => h.2.2.1)).ctx [] (valueToks value ++ [";"]) (by simp [Stmt.toks]) (by simp [Stmt.toks])
  | @value vs e e' h =>
    have hp := hp.to fun h => plain_of h (by simp)
    simp only [Stmt.Plain] at hp
    exact (within_value O h (hp.to fun h => h.2.2.2)).ctx (declToks vs) [";"] (by simp [Stmt.toks]) (by simp [Stmt.toks])
  | @block s s' pre post _ ih =>
    have hp := hp.to fun h => plain_of h (by simp)
    simp only [Stmt.Plain] at hp
    exact (ih (hp.to fun h => stmtsPlain_mem h (by simp))).ctx ("{" :: stmtsToks pre) (stmtsToks post ++ ["}"])
      (by simp [Stmt.toks, stmtsToks_append, stmtsToks]) (by simp [Stmt.toks, stmtsToks_append, stmtsToks])
  | @unchecked s s' pre post _ ih =>
    have hp := hp.to fun h => plain_of h (by simp)
    simp only [Stmt.Plain] at hp
    exact (ih (hp.to fun h => stmtsPlain_mem h (by simp))).ctx ("unchecked" :: "{" :: stmtsToks pre) (stmtsToks post ++ ["}"])
      (by simp [Stmt.toks, stmtsToks_append, stmtsToks]) (by simp [Stmt.toks, stmtsToks_append, stmtsToks])
  | @ifCondition e e' t h =>
    have hp := hp.to fun h => plain_of h (by simp)
    simp only [Stmt.Plain] at hp
    exact (within_can O h (hp.to fun h => h.1)).ctx ["if", "("] (")" :: t.toks) (by simp [Stmt.toks]) (by simp [Stmt.toks])
  | @ifBody e s s' _ ih =>
    have hp := hp.to fun h => plain_of h (by simp)
    simp only [Stmt.Plain] at hp
    exact (ih (hp.to fun h => .inl h.2)).ctx ("if" :: "(" :: (strE e ++ [")"])) [] (by simp [Stmt.toks]) (by simp [Stmt.toks])
  | @elseCondition e e' t f h =>
    have hp := hp.to fun h => plain_of h (by simp)
    simp only [Stmt.Plain] at hp
    exact (within_can O h (hp.to fun h => h.1)).ctx ["if", "("] (")" :: (t.toks ++ "else" :: f.toks)) (by simp [Stmt.toks]) (by simp [Stmt.toks])
  | @elseBody e s s' f _ ih =>
    have hp := hp.to fun h => plain_of h (by simp)
    simp only [Stmt.Plain] at hp
    exact (ih (hp.to fun h => .inl h.2.1)).ctx ("if" :: "(" :: (strE e ++ [")"])) ("else" :: f.toks) (by simp [Stmt.toks]) (by simp [Stmt.toks])
  | @elseOther e t s s' _ ih =>
    have hp := hp.to fun h => plain_of h (by simp)
    simp only [Stmt.Plain] at hp
    exact (ih (hp.to fun h => .inl h.2.2)).ctx ("if" :: "(" :: (strE e ++ ")" :: (t.toks ++ ["else"]))) [] (by simp [Stmt.toks]) (by simp [Stmt.toks])
  | @whileCondition e e' b h =>
    have hp := hp.to fun h => plain_of h (by simp)
    simp only [Stmt.Plain] at hp
    exact (within_can O h (hp.to fun h => h.1)).ctx ["while", "("] (")" :: b.toks) (by simp [Stmt.toks]) (by simp [Stmt.toks])
  | @whileBody e s s' _ ih =>
    have hp := hp.to fun h => plain_of h (by simp)
    simp only [Stmt.Plain] at hp
    exact (ih (hp.to fun h => .inl h.2)).ctx ("while" :: "(" :: (strE e ++ [")"])) [] (by simp [Stmt.toks]) (by simp [Stmt.toks])
  | @doCondition b e e' h =>
    have hp := hp.to fun h => plain_of h (by simp)
    simp only [Stmt.Plain] at hp
    exact (within_can O h (hp.to fun h => h.1)).ctx ("do" :: (b.toks ++ ["while", "("])) [")", ";"] (by simp [Stmt.toks]) (by simp [Stmt.toks])
  | @doBody s s' e _ ih =>
    have hp := hp.to fun h => plain_of h (by simp)
    simp only [Stmt.Plain] at hp
    exact (ih (hp.to fun h => .inl h.2)).ctx ["do"] ("while" :: "(" :: (strE e ++ [")", ";"])) (by simp [Stmt.toks]) (by simp [Stmt.toks])
  | @forInit s s' e st b _ ih =>
    have hp := hp.to fun h => plain_of h (by simp)
    simp only [Stmt.Plain] at hp
    exact (ih (hp.to fun h => .inl h.1)).ctx ["for", "("] (strE e ++ ";" :: ((st.map strE).getD [] ++ ")" :: b.toks))
      (by simp [Stmt.toks]) (by simp [Stmt.toks])
  | @forCondition i e e' st b h =>
    have hp := hp.to fun h => plain_of h (by simp)
    simp only [Stmt.Plain] at hp
    exact (within_can O h (hp.to fun h => h.2.1)).ctx ("for" :: "(" :: i.toks) (";" :: ((st.map strE).getD [] ++ ")" :: b.toks))
      (by simp [Stmt.toks]) (by simp [Stmt.toks])
  | @forStep i x e e' b h =>
    have hp := hp.to fun h => plain_of h (by simp)
    simp only [Stmt.Plain] at hp
    cases h with
    | mk h =>
      exact (within_can O h (hp.to fun h => h.2.2.1 _ rfl)).ctx ("for" :: "(" :: (i.toks ++ (strE x ++ [";"]))) (")" :: b.toks)
        (by simp [Stmt.toks]) (by simp [Stmt.toks])
  | @forBody i e st s s' _ ih =>
    have hp := hp.to fun h => plain_of h (by simp)
    simp only [Stmt.Plain] at hp
    exact (ih (hp.to fun h => .inl h.2.2.2)).ctx ("for" :: "(" :: (i.toks ++ (strE e ++ ";" :: ((st.map strE).getD [] ++ [")"])))) []
      (by simp [Stmt.toks]) (by simp [Stmt.toks])
  | result h =>
    have hp := hp.to fun h => plain_of h (by simp)
    simp only [Stmt.Plain] at hp
    cases h with
    | mk h => exact (within_can O h (hp.to fun h => h _ rfl)).ctx ["return"] [";"] (by simp [Stmt.toks]) (by simp [Stmt.toks])
  | emit h =>
    have hp := hp.to fun h => plain_of h (by simp)
    simp only [Stmt.Plain] at hp
    exact (within_can O h hp).ctx ["emit"] [";"] (by simp [Stmt.toks]) (by simp [Stmt.toks])
  | revert h =>
    have hp := hp.to fun h => plain_of h (by simp)
    simp only [Stmt.Plain] at hp
    exact (within_can O h hp).ctx ["revert"] [";"] (by simp [Stmt.toks]) (by simp [Stmt.toks])
  | @tried e e' rs b cs h =>
    have hp := hp.to fun h => plain_of h (by simp)
    simp only [Stmt.Plain] at hp
    exact (within_can O h (hp.to fun h => h.1)).ctx ["try"] (returnsToks rs ++ "{" :: (stmtsToks b ++ "}" :: catchToks cs))
      (by simp [Stmt.toks]) (by simp [Stmt.toks])
  | @tryReturns e rs rs' b cs h =>
    have hp := hp.to fun h => plain_of h (by simp)
    simp only [Stmt.Plain] at hp
    exact (within_returns O h (hp.to fun h => h.2.2.1)).ctx ("try" :: strE e) ("{" :: (stmtsToks b ++ "}" :: catchToks cs))
      (by simp [Stmt.toks]) (by simp [Stmt.toks])
  | @tryBody e rs b b' cs _ ih =>
    have hp := hp.to fun h => plain_of h (by simp)
    simp only [Stmt.Plain] at hp
    exact (ih (hp.to fun h => .inl (by simp only [Stmt.Plain]; exact h.2.2.2.1))).ctx ("try" :: (strE e ++ returnsToks rs)) (catchToks cs)
      (by simp [Stmt.toks]) (by simp [Stmt.toks])
  | @tryClause e rs b s s' pre post _ ih =>
    have hp := hp.to fun h => plain_of h (by simp)
    simp only [Stmt.Plain] at hp
    exact (ih (hp.to fun h => .inl (clausesPlain_mem h.2.2.2.2 (by simp)))).ctx
      ("try" :: (strE e ++ (returnsToks rs ++ "{" :: (stmtsToks b ++ "}" :: (catchToks pre ++ ["catch"]))))) (catchToks post)
      (by simp [Stmt.toks, catchToks_append, catchToks]) (by simp [Stmt.toks, catchToks_append, catchToks])
  | @clauseParams n ps ps' b h =>
    have hp := hp.to fun h => plain_of h (by simp)
    simp only [Stmt.Plain] at hp
    cases h with
    | mk h =>
      exact (within_params O h (hp.to fun h => h.2.1 _ rfl)).ctx n.toList ("{" :: (stmtsToks b ++ ["}"]))
        (by simp [Stmt.toks, SolGrammar.clauseParams]) (by simp [Stmt.toks, SolGrammar.clauseParams])
  | @clauseBody n ps b b' _ ih =>
    have hp := hp.to fun h => plain_of h (by simp)
    simp only [Stmt.Plain] at hp
    exact (ih (hp.to fun h => .inl (by simp only [Stmt.Plain]; exact h.2.2))).ctx (n.toList ++ SolGrammar.clauseParams ps) []
      (by simp [Stmt.toks]) (by simp [Stmt.toks])

theorem within_use (O : OnTokens c r) {u u' : Use} (h : InUse c u u') (hp : Can c u.Plain) : Within r u.toks u'.toks := by
  cases h with
  | @args es' h =>
    generalize ha : u.args = a at h
    cases h with
    | mk h =>
      cases h with
      | @mk e e' pre post h =>
        obtain ⟨p, s, hs⟩ := strArgs_hole post pre
        exact (within_can O h (hp.to fun h => legibleAll_mem (h.2 _ ha) (by simp))).ctx (pathToks u.name ++ "(" :: p) (s ++ [")"])
          (by simp [Use.toks, ha, argsToks, hs]) (by simp [Use.toks, argsToks, hs])

theorem within_body (O : OnTokens c r) {b b' : Option (List Stmt)} (h : InBody c b b') (hp : Can c (bodyPlain true b)) :
    Within r (bodyToks b) (bodyToks b') := by
  cases h with
  | mk h => exact within_stmt O h (hp.to fun h => .inl (by simp only [Stmt.Plain]; exact h _ rfl))

theorem within_fn (O : OnTokens c r) {f f' : Fn} (h : InFn c f f') (hp : Can c (f.Plain true)) : Within r f.toks f'.toks := by
  cases h with
  | @params ps' h =>
    exact (within_params O h (hp.to fun h => h.params)).ctx (f.kind :: f.name.toList) (f.visibility.toList ++ flag f.virtual "virtual" ++
      f.mutability.toList ++ overrideToks f.override ++ f.modifiers.flatMap Use.toks ++ returnsToks f.returns ++ bodyToks f.body)
      (by simp [Fn.toks]) (by simp [Fn.toks])
  | @modifiers us' h =>
    generalize hm : f.modifiers = ms at h
    cases h with
    | @mk u u' pre post h =>
      exact (within_use O h (hp.to fun h => h.modifiers.2 _ (by simp [hm]))).ctx (f.kind :: (f.name.toList ++ paramsToks f.params ++
        f.visibility.toList ++ flag f.virtual "virtual" ++ f.mutability.toList ++ overrideToks f.override ++ pre.flatMap Use.toks))
        (post.flatMap Use.toks ++ returnsToks f.returns ++ bodyToks f.body) (by simp [Fn.toks, hm]) (by simp [Fn.toks])
  | @returns rs' h =>
    exact (within_returns O h (hp.to fun h => h.returns)).ctx (f.kind :: (f.name.toList ++ paramsToks f.params ++ f.visibility.toList ++
      flag f.virtual "virtual" ++ f.mutability.toList ++ overrideToks f.override ++ f.modifiers.flatMap Use.toks)) (bodyToks f.body)
      (by simp [Fn.toks]) (by simp [Fn.toks])
  | @body b' h =>
    exact (within_body O h (hp.to fun h => h.body)).ctx (f.kind :: (f.name.toList ++ paramsToks f.params ++ f.visibility.toList ++
      flag f.virtual "virtual" ++ f.mutability.toList ++ overrideToks f.override ++ f.modifiers.flatMap Use.toks ++
      returnsToks f.returns)) [] (by simp [Fn.toks]) (by simp [Fn.toks])

theorem within_member (O : OnTokens c r) {m m' : Member} (h : InMember c m m') (hp : Can c (m.Plain true)) :
    Within r m.toks m'.toks := by
  cases h with
  | state h => exact (within_var O h (hp.to fun h => h.1)).ctx [] [";"] (by simp [Member.toks]) (by simp [Member.toks])
  | fn h => exact within_fn O h (hp.to fun h => h.1)
  | @modifierParams n ps ps' v b doc h =>
    exact (within_params O h (hp.to fun h => h.2.1)).ctx ["modifier", n] (flag v "virtual" ++ bodyToks b) (by simp [Member.toks]) (by simp [Member.toks])
  | @modifierBody n ps v b b' doc h =>
    exact (within_body O h (hp.to fun h => h.2.2.2.1)).ctx ("modifier" :: n :: (paramsToks ps ++ flag v "virtual")) []
      (by simp [Member.toks]) (by simp [Member.toks])
  | @event n ps ps' a h =>
    exact (within_params O h (hp.to fun h => h.2)).ctx ["event", n] (flag a "anonymous" ++ [";"]) (by simp [Member.toks]) (by simp [Member.toks])
  | @error n ps ps' h => exact (within_params O h (hp.to fun h => h.2)).ctx ["error", n] [";"] (by simp [Member.toks]) (by simp [Member.toks])
  | @struct n vs vs' h =>
    cases h with
    | @mk v v' pre post h =>
      exact (within_var O h (hp.to fun h => h.2 v (by simp))).ctx ("struct" :: n :: "{" :: pre.flatMap (fun v => v.toks ++ [";"]))
        (";" :: (post.flatMap (fun v => v.toks ++ [";"]) ++ ["}"])) (by simp [Member.toks]) (by simp [Member.toks])
  | @using_ l t t' g h =>
    exact (within_ty O h (hp.to fun h => h.2)).ctx ("using" :: (pathToks l ++ ["for"])) (flag g "global" ++ [";"])
      (by simp [Member.toks]) (by simp [Member.toks])
  | @operators fs t t' g h =>
    exact (within_ty O h (hp.to fun h => h.2.2)).ctx ("using" :: "{" :: (sepBy "," (fs.map fun f => pathToks f.1 ++ ["as", f.2]) ++
      ["}", "for"])) (flag g "global" ++ [";"]) (by simp [Member.toks]) (by simp [Member.toks])
  | @type n t t' h => exact (within_ty O h (hp.to fun h => h.2)).ctx ["type", n, "is"] [";"] (by simp [Member.toks]) (by simp [Member.toks])

theorem within_contract (O : OnTokens c r) {k k' : Contract} (h : InContract c k k') (hp : Can c (k.Plain true)) :
    Within r k.toks k'.toks := by
  cases h with
  | here h => exact O.contract _ _ h
  | @bases us' h =>
    have key : ∀ ws : List Use, ws ≠ [] → basesToks ws = "is" :: sepBy "," (ws.map Use.toks) := by
      intro ws hws
      cases ws with
      | nil => exact absurd rfl hws
      | cons => rfl
    generalize hb : k.bases = bs at h
    cases h with
    | @mk u u' pre post h =>
      obtain ⟨p, s, hs⟩ := sepBy_hole "," (post.map Use.toks) (pre.map Use.toks)
      exact (within_use O h (hp.to fun h => h.bases _ (by simp [hb]))).ctx
        (flag k.abstract_ "abstract" ++ k.kind :: k.name :: "is" :: p) (s ++ "{" :: (k.members.flatMap Member.toks ++ ["}"]))
        (by simp [Contract.toks, hb, key, hs]) (by simp [Contract.toks, key, hs])
  | @members ms' h =>
    generalize hm : k.members = ms at h
    cases h with
    | @mk x x' pre post h =>
      exact (within_member O h (hp.to fun h => h.members _ (by simp [hm]))).ctx
        (flag k.abstract_ "abstract" ++ k.kind :: k.name :: (basesToks k.bases ++ "{" :: pre.flatMap Member.toks))
        (post.flatMap Member.toks ++ ["}"]) (by simp [Contract.toks, hm]) (by simp [Contract.toks])

theorem within_item (O : OnTokens c r) {i i' : Item} (h : InItem c i i') (hp : Can c (i.Plain true)) : Within r i.toks i'.toks := by
  cases h with
  | contract h => exact within_contract O h (hp.to fun h => h)
  | member h => exact within_member O h (hp.to fun h => h.1)

theorem within_file (O : OnTokens c r) {f f' : SourceFile} (h : InFile c f f') (hp : Can c (f.Plain true)) :
    Within r f.toks f'.toks := by
  cases h with
  | @items is' h =>
    generalize hi : f.items = is at h
    cases h with
    | @mk x x' pre post h =>
      exact (within_item O h (hp.to fun h => h.items _ (by simp [hi]))).ctx (pre.flatMap Item.toks) (post.flatMap Item.toks)
        (by simp [SourceFile.toks, hi]) (by simp [SourceFile.toks])

/-! ### The algorithms and the comments -/

theorem onTokens_binary {t : MutationType} (hr : ∀ o o' : String, o' ≠ o → o ∈ operatorClass t → o' ∈ operatorClass t → r [o] [o']) :
    OnTokens (operatorChange t) r := by
  refine ⟨?_, fun _ _ h => h.elim, fun _ _ h => h.elim⟩
  rintro e e' _ ⟨l, o, o', rr, rfl, rfl, hne, h1, h2⟩
  refine (within_here (hr _ _ (fun h => hne ?_) h1 h2)).ctx (strE l) (strE rr) (by simp [strE]) (by simp [strE])
  revert h; cases o <;> cases o' <;> decide

theorem onTokens_comment (text : String) : OnTokens (commentIn text) Braces := by
  refine ⟨fun _ _ _ h => h.elim, ?_, ?_⟩
  · rintro s s' (⟨a, b, rfl, rfl⟩ | ⟨a, b, rfl, rfl⟩ | ⟨c, t, rfl, rfl⟩ | ⟨c, t, f, rfl, rfl⟩ | ⟨c, t, f, rfl, rfl⟩ | ⟨c, t, rfl, rfl⟩ |
      ⟨c, t, rfl, rfl⟩ | ⟨i, c, st, t, rfl, rfl⟩)
    · exact within_here (.inl (by simp [Stmt.toks, stmtsToks_append, stmtsToks]))
    · exact within_here (.inl (by simp [Stmt.toks, stmtsToks_append, stmtsToks]))
    · exact (within_here (x := t.toks) (y := "{" :: (t.toks ++ ["}"])) (.inr rfl)).ctx ("if" :: "(" :: (strE c ++ [")"])) []
        (by simp [Stmt.toks]) (by simp [Stmt.toks, stmtsToks])
    · exact (within_here (x := t.toks) (y := "{" :: (t.toks ++ ["}"])) (.inr rfl)).ctx ("if" :: "(" :: (strE c ++ [")"])) ("else" :: f.toks)
        (by simp [Stmt.toks]) (by simp [Stmt.toks, stmtsToks])
    · exact (within_here (x := f.toks) (y := "{" :: (f.toks ++ ["}"])) (.inr rfl)).ctx
        ("if" :: "(" :: (strE c ++ ")" :: (t.toks ++ ["else"]))) [] (by simp [Stmt.toks]) (by simp [Stmt.toks, stmtsToks])
    · exact (within_here (x := t.toks) (y := "{" :: (t.toks ++ ["}"])) (.inr rfl)).ctx ("while" :: "(" :: (strE c ++ [")"])) []
        (by simp [Stmt.toks]) (by simp [Stmt.toks, stmtsToks])
    · exact (within_here (x := t.toks) (y := "{" :: (t.toks ++ ["}"])) (.inr rfl)).ctx ["do"] ("while" :: "(" :: (strE c ++ [")", ";"]))
        (by simp [Stmt.toks]) (by simp [Stmt.toks, stmtsToks])
    · exact (within_here (x := t.toks) (y := "{" :: (t.toks ++ ["}"])) (.inr rfl)).ctx
        ("for" :: "(" :: (i.toks ++ (strE c ++ ";" :: ((st.map strE).getD [] ++ [")"])))) [] (by simp [Stmt.toks]) (by simp [Stmt.toks, stmtsToks])
  · rintro k k' ⟨a, b, h, rfl⟩
    exact within_here (.inl (by simp [Contract.toks, h, Member.toks]))

theorem comment_tokens {text : String} {f f' : SourceFile} (h : NewComment text f f') : Within Braces f.toks f'.toks :=
  within_file (onTokens_comment text) h (.inl fun _ _ h => h)

theorem onTokens_arguments {rel : List Expr → List Expr → Prop}
    (h1 : ∀ xs ys, rel xs ys → Within r (strArgs xs) (strArgs ys))
    (h2 : ∀ ns xs ys, ns ≠ [] → ns.length = xs.length → rel xs ys → Within r (strNamed ns xs) (strNamed ns ys)) :
    OnTokens (argumentChange rel) r := by
  refine ⟨?_, fun _ _ h => h.elim, fun _ _ h => h.elim⟩
  rintro e e' hl ⟨xs, ys, h, ⟨f, rfl, rfl⟩ | ⟨f, ns, rfl, rfl⟩⟩
  · exact (h1 _ _ h).ctx (strE f ++ ["("]) [")"] (by simp [strE]) (by simp [strE])
  · rcases hl with hl | hl
    · cases hl
    · simp only [Legible] at hl
      exact (h2 ns _ _ hl.2.1 hl.2.2.1 h).ctx (strE f ++ ["(", "{"]) ["}", ")"] (by simp [strE]) (by simp [strE])

theorem strE_numeral (k : Int) : strE (numeral k) = numeralToks k := by
  unfold numeral numeralToks
  split <;> simp [strE, Prefix.text]

theorem strE_numeralWith (k : Int) (u : String) : strE (numeralWith k u) = numeralToks k ++ [u] := by
  unfold numeralWith numeralToks
  split <;> simp [strE, Prefix.text]

/-- What the algorithms do to tokens. -/
theorem onTokens (t : MutationType) : OnTokens (changeOf t) (tokenChange t) := by
  cases t with
  | arithmeticBinaryOp | logicalBinaryOp | bitwiseBinaryOp | bitshiftBinaryOp | comparisonBinaryOp =>
    exact onTokens_binary fun o o' h1 h2 h3 => ⟨o, o', rfl, rfl, h1, h2, h3⟩
  | deleteStatement => exact ⟨fun _ _ _ h => h.elim, fun _ _ h => h.elim, fun _ _ h => h.elim⟩
  | assignment =>
    refine ⟨?_, fun _ _ h => h.elim, fun _ _ h => h.elim⟩
    rintro e e' _ ⟨l, o, rr, v, rfl, hl, rfl, hv⟩
    refine (within_here (r := tokenChange .assignment) ⟨o, strE rr, strE v, rfl, rfl, hl, ?_⟩).ctx (strE l) [] (by simp [strE]) (by simp [strE])
    rcases hv with ⟨k, rfl⟩ | rfl | rfl
    · exact .inl ⟨k, strE_numeral k⟩
    · exact .inr (.inl (by simp [strE]))
    · exact .inr (.inr (by simp [strE]))
  | functionCall =>
    refine ⟨?_, fun _ _ h => h.elim, fun _ _ h => h.elim⟩
    rintro e e' hl ⟨args, hm, ⟨f, rfl⟩ | ⟨f, ns, rfl⟩⟩
    · obtain ⟨pre, post, rfl⟩ := List.append_of_mem hm
      obtain ⟨p, s, h⟩ := strArgs_hole post pre
      exact within_here ⟨strE f, p, s, by simp [strE, h]⟩
    · rcases hl with hl | hl
      · cases hl
      · simp only [Legible] at hl
        obtain ⟨pre, post, rfl⟩ := List.append_of_mem hm
        obtain ⟨p, s, h⟩ := strNamed_hole (pre := pre) (post := post) (ns := ns) (by rw [hl.2.2.1]; simp)
        exact within_here ⟨strE f, "{" :: p, s ++ ["}"], by simp [strE, h]⟩
  | swapFunctionArguments =>
    refine onTokens_arguments ?_ ?_
    · rintro xs ys ⟨pre, a, mid, b, post, -, -, rfl, rfl⟩
      obtain ⟨p, m, s, h⟩ := strArgs_holes mid post pre
      exact (within_here (r := tokenChange .swapFunctionArguments) ⟨strE a, m, strE b, rfl, rfl⟩).ctx p s (by simp [h]) (by simp [h])
    · rintro ns xs ys - hlen ⟨pre, a, mid, b, post, -, -, rfl, rfl⟩
      obtain ⟨p, m, s, h⟩ := strNamed_holes (pre := pre) (mid := mid) (post := post) (ns := ns) (by rw [hlen]; simp; omega)
      exact (within_here (r := tokenChange .swapFunctionArguments) ⟨strE a, m, strE b, rfl, rfl⟩).ctx p s (by simp [h]) (by simp [h])
  | ifStatement =>
    refine ⟨fun _ _ _ h => h.elim, ?_, fun _ _ h => h.elim⟩
    rintro s s' ⟨x, x', hx, h⟩
    have hc : strE x' = ["true"] ∨ strE x' = ["false"] ∨ strE x' = "!" :: "(" :: (strE x ++ [")"]) := by
      rcases hx with rfl | rfl | rfl
      · exact .inl (by simp [strE])
      · exact .inr (.inl (by simp [strE]))
      · exact .inr (.inr (by simp [negation, strE, Prefix.text]))
    have hw := within_here (r := tokenChange .ifStatement) ⟨strE x, strE x', rfl, rfl, hc⟩
    rcases h with ⟨t, rfl, rfl⟩ | ⟨t, f, rfl, rfl⟩
    · exact hw.ctx [] t.toks (by simp [Stmt.toks]) (by simp [Stmt.toks])
    · exact hw.ctx [] (t.toks ++ "else" :: f.toks) (by simp [Stmt.toks]) (by simp [Stmt.toks])
  | integer =>
    refine ⟨?_, fun _ _ h => h.elim, fun _ _ h => h.elim⟩
    rintro e e' _ ⟨x, k, ⟨he, rfl⟩ | ⟨u, he, rfl⟩⟩
    · refine within_here ⟨x, k, ?_, strE_numeral k⟩
      rcases he with rfl | rfl
      · exact .inl (by simp [strE])
      · exact .inr (by simp [strE, Prefix.text])
    · rcases he with rfl | rfl
      · exact (within_here (r := tokenChange .integer) ⟨x, k, .inl rfl, rfl⟩).ctx [] [u] (by simp [strE]) (by simp [strE_numeralWith])
      · exact (within_here (r := tokenChange .integer) ⟨x, k, .inr rfl, rfl⟩).ctx [] [u] (by simp [strE, Prefix.text])
          (by simp [strE_numeralWith])
  | swapOperatorArguments =>
    refine ⟨?_, fun _ _ h => h.elim, fun _ _ h => h.elim⟩
    rintro e e' _ ⟨l, o, rr, rfl, rfl, ho⟩
    exact within_here ⟨strE l, o.text, strE rr, by simp [strE], by simp [strE], ho⟩
  | swapLines =>
    refine ⟨fun _ _ _ h => h.elim, ?_, fun _ _ h => h.elim⟩
    rintro s s' ⟨x, x', rfl, rfl, pre, a, mid, b, post, -, -, rfl, rfl⟩
    exact (within_here (r := tokenChange .swapLines) ⟨a.toks, stmtsToks mid, b.toks, rfl, rfl⟩).ctx ("{" :: stmtsToks pre) (stmtsToks post ++ ["}"])
      (by simp [Stmt.toks, stmtsToks_append, stmtsToks]) (by simp [Stmt.toks, stmtsToks_append, stmtsToks])
  | unaryOp =>
    refine ⟨?_, fun _ _ h => h.elim, fun _ _ h => h.elim⟩
    rintro e e' _ (⟨u, u', x, rfl, rfl, hne, h1, h2⟩ | ⟨u, u', x, rfl, rfl, hne⟩)
    · refine (within_here (r := tokenChange .unaryOp) ⟨u.text, u'.text, rfl, rfl, fun h => hne ?_, h1, h2⟩).ctx [] (strE x) (by simp [strE]) (by simp [strE])
      revert h; cases u <;> cases u' <;> decide
    · refine (within_here (r := tokenChange .unaryOp) ⟨u.text, u'.text, rfl, rfl, fun h => hne ?_, ?_, ?_⟩).ctx (strE x) [] (by simp [strE]) (by simp [strE])
      · revert h; cases u <;> cases u' <;> decide
      · cases u <;> decide
      · cases u' <;> decide
  | require =>
    refine onTokens_arguments ?_ ?_
    · rintro xs ys ⟨x, rest, rfl, rfl⟩
      exact (within_here (r := tokenChange .require) (x := strE x) rfl).ctx [] (strRest rest) (by simp [strArgs])
        (by simp [strArgs, negation, strE, Prefix.text])
    · rintro ns xs ys hne - ⟨x, rest, rfl, rfl⟩
      cases ns with
      | nil => exact absurd rfl hne
      | cons n ns =>
        exact (within_here (r := tokenChange .require) (x := strE x) rfl).ctx [n, ":"] (strNamedRest ns rest) (by simp [strNamed])
          (by simp [strNamed, negation, strE, Prefix.text])
  | uncheckedBlock =>
    refine ⟨fun _ _ _ h => h.elim, ?_, fun _ _ h => h.elim⟩
    rintro s s' ⟨pre, x, post, rfl, rfl, -, -⟩
    exact (within_here (r := tokenChange .uncheckedBlock) (x := x.toks) rfl).ctx ("{" :: stmtsToks pre) (stmtsToks post ++ ["}"])
      (by simp [Stmt.toks, stmtsToks_append, stmtsToks]) (by simp [Stmt.toks, stmtsToks_append, stmtsToks])
  | elimDelegateCall =>
    refine ⟨?_, fun _ _ h => h.elim, fun _ _ h => h.elim⟩
    rintro e e' _ ⟨x, rfl, rfl⟩
    exact (within_here (r := tokenChange .elimDelegateCall) ⟨rfl, rfl⟩).ctx (strE x) [] (by simp [strE]) (by simp [strE])

theorem change_tokens {t : MutationType} {f f' : SourceFile} (h : InFile (changeOf t) f f') (hp : f.Plain true) :
    Within (tokenChange t) f.toks f'.toks := within_file (onTokens t) h (.inr hp)

end SolTokens
end Mutagenyx
