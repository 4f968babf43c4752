import Verif.Model.Permissions

/-!
# C22, C23: permissions
-/

namespace Mutagenyx

/-! ### C23: what a rule covers -/

/-- The kind of thing a rule or request is about; `none` for "anything". -/
inductive Kind where
  | type | name | children
  deriving DecidableEq, Repr

/-- Allow or deny. -/
def PermissionObject.perm : PermissionObject → Permission
  | .value _ p => p
  | .any p => p
/-- The name meant; `none` for "any". -/
def PermissionObject.nm : PermissionObject → Option String
  | .value s _ => some s
  | .any _ => none
/-- Allow or deny. -/
def PermissionScope.perm : PermissionScope → Permission
  | .type o => o.perm
  | .name o => o.perm
  | .children o => o.perm
  | .any p => p
/-- The kind; `none` for "anything". -/
def PermissionScope.kind : PermissionScope → Option Kind
  | .type _ => some .type
  | .name _ => some .name
  | .children _ => some .children
  | .any _ => none
/-- The name meant; `none` for "any". -/
def PermissionScope.nm : PermissionScope → Option String
  | .type o => o.nm
  | .name o => o.nm
  | .children o => o.nm
  | .any _ => none
/-- Whether it is about mutating (otherwise: visiting). -/
def PermissionAction.isMutate : PermissionAction → Bool
  | .mutate _ => true
  | .visit _ => false
/-- The scope. -/
def PermissionAction.scope : PermissionAction → PermissionScope
  | .mutate s => s
  | .visit s => s

/-- What "rule `r` covers request `q`" should mean: same action, same permission, and the rule is about
anything, or about the same kind of thing and about any name or the same name. -/
def Covers (r q : PermissionAction) : Prop :=
  r.isMutate = q.isMutate ∧ r.scope.perm = q.scope.perm ∧
    (r.scope.kind = none ∨
      (r.scope.kind = q.scope.kind ∧ (r.scope.nm = none ∨ r.scope.nm = q.scope.nm)))

theorem C23_covers_iff (r q : PermissionAction) : r.covers q = true ↔ Covers r q := by
  have hp : ∀ p p' : Permission, p.covers p' = true ↔ p = p' := by
    intro p p'; cases p <;> cases p' <;> decide
  have ho : ∀ o o' : PermissionObject, o.covers o' = true ↔
      o.perm = o'.perm ∧ (o.nm = none ∨ o.nm = o'.nm) := by
    intro o o'
    cases o <;> cases o' <;>
      simp [PermissionObject.covers, PermissionObject.perm, PermissionObject.nm, hp, and_comm]
  have hs : ∀ s s' : PermissionScope, s.covers s' = true ↔ s.perm = s'.perm ∧
      (s.kind = none ∨ (s.kind = s'.kind ∧ (s.nm = none ∨ s.nm = s'.nm))) := by
    intro s s'
    cases s with
    | any p =>
      cases s' with
      | any p' => simp [PermissionScope.covers, PermissionScope.perm, PermissionScope.kind, hp]
      | _ o' => cases o' <;> simp [PermissionScope.covers, PermissionScope.perm, PermissionScope.kind,
          PermissionObject.perm, hp]
    | _ o => cases s' <;> simp [PermissionScope.covers, PermissionScope.perm, PermissionScope.kind,
          PermissionScope.nm, ho]
  cases r <;> cases q <;>
    simp [PermissionAction.covers, Covers, PermissionAction.isMutate, PermissionAction.scope, hs]

/-- **C23**: coverage is reflexive. -/
theorem C23_refl (a : PermissionAction) : a.covers a = true :=
  (C23_covers_iff a a).2 ⟨rfl, rfl, Or.inr ⟨rfl, Or.inr rfl⟩⟩

/-- **C23**: coverage is transitive. -/
theorem C23_trans (a b c : PermissionAction) (h₁ : a.covers b = true) (h₂ : b.covers c = true) :
    a.covers c = true := by
  rw [C23_covers_iff] at *
  obtain ⟨i, p, k⟩ := h₁
  obtain ⟨i', p', k'⟩ := h₂
  refine ⟨i.trans i', p.trans p', ?_⟩
  rcases k with k | ⟨k, n⟩
  · exact Or.inl k
  · rcases k' with k' | ⟨k', n'⟩
    · exact Or.inl (k.trans k')
    · refine Or.inr ⟨k.trans k', ?_⟩
      rcases n with n | n
      · exact Or.inl n
      · rcases n' with n' | n'
        · exact Or.inl (n.trans n')
        · exact Or.inr (n.trans n')

/-- **C23**: allow is never confused with deny, visiting never with mutating. -/
theorem C23_no_confusion (r q : PermissionAction) (h : r.covers q = true) :
    r.isMutate = q.isMutate ∧ r.scope.perm = q.scope.perm := by
  rw [C23_covers_iff] at h
  exact ⟨h.1, h.2.1⟩

/-- **C23**: a universal rule covers every request with its action and permission. -/
theorem C23_universal (s : PermissionScope) :
    (PermissionAction.mutate (.any s.perm)).covers (.mutate s) = true ∧
    (PermissionAction.visit (.any s.perm)).covers (.visit s) = true :=
  ⟨(C23_covers_iff _ _).2 ⟨rfl, rfl, Or.inl rfl⟩, (C23_covers_iff _ _).2 ⟨rfl, rfl, Or.inl rfl⟩⟩

/-- **C23**: a rule for one name covers only requests for that name of that kind. -/
theorem C23_named (n : String) (p : Permission) (q : PermissionAction)
    (h : (PermissionAction.mutate (.name (.value n p))).covers q = true) :
    q = .mutate (.name (.value n p)) := by
  rw [C23_covers_iff] at h
  obtain ⟨i, hp, k⟩ := h
  cases q with
  | visit s => cases i
  | mutate s =>
    simp only [PermissionAction.scope, PermissionScope.kind, PermissionScope.nm, PermissionObject.nm,
      PermissionScope.perm, PermissionObject.perm, reduceCtorEq, false_or] at k hp
    obtain ⟨k, n'⟩ := k
    cases s with
    | name o => cases o with
      | value s p' => simp only [PermissionObject.nm, Option.some.injEq, PermissionObject.perm] at n' hp
                      rw [n', hp]
      | any p' => cases n'
    | _ => cases k

example : (PermissionAction.mutate (.name (.any .allow))).covers (.mutate (.name (.value "f" .allow))) = true ∧
    (PermissionAction.mutate (.name (.value "f" .allow))).covers (.mutate (.name (.any .allow))) = false := by
  decide

/-! ### C22: histories -/

/-- An operation on a permissions object. -/
inductive PermOp where
  | grant (a : PermissionAction)
  | revoke (a : PermissionAction)
  | clear
  deriving DecidableEq, Repr

/-- The permissions object after one more operation. -/
def applyOp (ps : Permissions) : PermOp → Permissions
  | .grant a => ps.add a
  | .revoke a => ps.remove a
  | .clear => ps.clear

/-- The permissions object after a history, starting from a new one. -/
def runOps (ops : List PermOp) : Permissions := ops.foldl applyOp Permissions.new

/-- How many grants of a rule are outstanding after a history (last operation first). -/
def outstandingRev (r : PermissionAction) : List PermOp → Nat
  | [] => 0
  | .grant a :: ops => if a = r then outstandingRev r ops + 1 else outstandingRev r ops
  | .revoke a :: ops => if a = r then outstandingRev r ops - 1 else outstandingRev r ops
  | .clear :: _ => 0

/-- How many grants of a rule are outstanding after a history: grants so far minus revocations that
found one, counted since the last clearing. -/
def outstanding (r : PermissionAction) (ops : List PermOp) : Nat := outstandingRev r ops.reverse

theorem Permissions.remove_eq_erase (a : PermissionAction) (ps : Permissions) :
    ps.remove a = List.erase ps a := by
  induction ps with
  | nil => rfl
  | cons p ps ih =>
    simp only [Permissions.remove]
    by_cases h : p = a
    · subst h; simp
    · rw [if_neg h, List.erase_cons_tail (by simpa using h), ih]

theorem outstanding_eq_count (r : PermissionAction) (ops : List PermOp) :
    outstanding r ops = List.count r (runOps ops) := by
  unfold outstanding runOps
  rw [List.foldl_eq_foldr_reverse]
  induction ops.reverse with
  | nil => rfl
  | cons op ops ih =>
    rw [List.foldr_cons]
    generalize List.foldr (fun x y => applyOp y x) Permissions.new ops = ps at ih ⊢
    cases op with
    | grant a =>
      simp only [outstandingRev, List.foldr_cons, applyOp, Permissions.add, List.count_append]
      by_cases h : a = r
      · subst h; simp [ih]
      · simp [h, ih]
    | revoke a =>
      simp only [outstandingRev, List.foldr_cons, applyOp, Permissions.remove_eq_erase]
      by_cases h : a = r
      · subst h; simp [ih, List.count_erase_self]
      · rw [if_neg h, ih, List.count_erase_of_ne (fun e => h e.symm)]
    | clear => simp [outstandingRev, applyOp, Permissions.clear]

theorem Permissions.have_iff (a : PermissionAction) (ps : Permissions) :
    ps.have? a = true ↔ ∃ r, r ∈ ps ∧ r.covers a = true := by
  induction ps with
  | nil => simp [Permissions.have?]
  | cons p ps ih =>
    simp only [Permissions.have?, List.mem_cons]
    split
    · rename_i h; simp [h]
    · rename_i h; rw [ih]; constructor
      · rintro ⟨q, hq, h'⟩; exact ⟨q, Or.inr hq, h'⟩
      · rintro ⟨q, rfl | hq, h'⟩
        · exact absurd h' h
        · exact ⟨q, hq, h'⟩

/-- **C22.** After any history of grants, revocations and clearings, a request is permitted iff some rule
with an outstanding grant covers it. -/
theorem C22_history (ops : List PermOp) (q : PermissionAction) :
    (runOps ops).have? q = true ↔ ∃ r, 0 < outstanding r ops ∧ Covers r q := by
  rw [Permissions.have_iff]
  constructor
  · rintro ⟨r, hr, hc⟩
    exact ⟨r, by rw [outstanding_eq_count]; exact List.count_pos_iff.2 hr, (C23_covers_iff r q).1 hc⟩
  · rintro ⟨r, hr, hc⟩
    exact ⟨r, by rw [outstanding_eq_count] at hr; exact List.count_pos_iff.1 hr, (C23_covers_iff r q).2 hc⟩

/-- **C22**: granting never takes a permission away. -/
theorem C22_grant_monotone (ps : Permissions) (a q : PermissionAction) (h : ps.have? q = true) :
    (ps.add a).have? q = true := by
  rw [Permissions.have_iff] at *
  obtain ⟨r, hr, hc⟩ := h
  exact ⟨r, by simp [Permissions.add, hr], hc⟩

/-- **C22**: the order in which rules were granted does not matter to any answer. -/
theorem C22_order_irrelevant (ps ps' : Permissions) (h : List.Perm ps ps') (q : PermissionAction) :
    ps.have? q = ps'.have? q := by
  rw [Bool.eq_iff_iff, Permissions.have_iff, Permissions.have_iff]
  constructor <;> rintro ⟨r, hr, hc⟩
  · exact ⟨r, h.mem_iff.1 hr, hc⟩
  · exact ⟨r, h.mem_iff.2 hr, hc⟩

/-- **C22**: revoking takes back exactly one grant of exactly that rule. -/
theorem C22_revoke_one (ops : List PermOp) (a r : PermissionAction) :
    outstanding r (ops ++ [.revoke a]) = if r = a then outstanding r ops - 1 else outstanding r ops := by
  unfold outstanding
  rw [List.reverse_append]
  simp only [List.reverse_singleton, List.singleton_append, outstandingRev]
  by_cases h : a = r
  · simp [h]
  · simp [h, Ne.symm h]

example : (runOps [.grant (.visit (.any .allow)), .grant (.mutate (.any .allow)),
      .grant (.mutate (.any .allow)), .revoke (.mutate (.any .allow)), .revoke (.visit (.any .deny))]).have?
        (.mutate (.name (.value "f" .allow))) = true ∧
    (runOps [.grant (.mutate (.any .allow)), .revoke (.mutate (.any .allow))]).have?
        (.mutate (.name (.value "f" .allow))) = false := by decide

end Mutagenyx
