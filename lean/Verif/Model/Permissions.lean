/-!
# `mutagenyx_lib/src/permissions.rs`
-/

namespace Mutagenyx

/-- Models `Permission` (`permissions.rs:153-159`). -/
inductive Permission where
  | allow
  | deny
  deriving DecidableEq, Repr, Inhabited

/-- Models `Permission::matches` (`permissions.rs:163-168`). -/
def Permission.covers : Permission → Permission → Bool
  | .allow, .allow => true
  | .deny, .deny => true
  | _, _ => false

/-- Models `PermissionObject` (`permissions.rs:118-128`). -/
inductive PermissionObject where
  | value (s : String) (p : Permission)
  | any (p : Permission)
  deriving DecidableEq, Repr, Inhabited

/-- Models `PermissionObject::matches` (`permissions.rs:136-149`). -/
def PermissionObject.covers : PermissionObject → PermissionObject → Bool
  | .value s p, .value s' p' => s = s' && p.covers p'
  | .value _ _, .any _ => false
  | .any p, .value _ p' => p.covers p'
  | .any p, .any p' => p.covers p'

/-- Models `PermissionScope` (`permissions.rs:54-76`). -/
inductive PermissionScope where
  | type (o : PermissionObject)
  | name (o : PermissionObject)
  | children (o : PermissionObject)
  | any (p : Permission)
  deriving DecidableEq, Repr, Inhabited

/-- Models `PermissionScope::matches` (`permissions.rs:84-114`). -/
def PermissionScope.covers : PermissionScope → PermissionScope → Bool
  | .type o, .type o' => o.covers o'
  | .name o, .name o' => o.covers o'
  | .children o, .children o' => o.covers o'
  | .any p, .type (.value _ p') => p.covers p'
  | .any p, .type (.any p') => p.covers p'
  | .any p, .name (.value _ p') => p.covers p'
  | .any p, .name (.any p') => p.covers p'
  | .any p, .children (.value _ p') => p.covers p'
  | .any p, .children (.any p') => p.covers p'
  | .any p, .any p' => p.covers p'
  | _, _ => false

/-- Models `PermissionAction` (`permissions.rs:24-31`). -/
inductive PermissionAction where
  | mutate (s : PermissionScope)
  | visit (s : PermissionScope)
  deriving DecidableEq, Repr, Inhabited

/-- Models `PermissionAction::matches` (`permissions.rs:39-50`). -/
def PermissionAction.covers : PermissionAction → PermissionAction → Bool
  | .mutate s, .mutate s' => s.covers s'
  | .visit s, .visit s' => s.covers s'
  | _, _ => false

/-- Models `Permissions` (`permissions.rs:172-176`). -/
abbrev Permissions := List PermissionAction

namespace Permissions
/-- Models `Permissions::new` (`permissions.rs:180-184`). -/
def new : Permissions := []
/-- Models `add_permission` (`permissions.rs:192-194`). -/
def add (a : PermissionAction) (ps : Permissions) : Permissions := ps ++ [a]
/-- Models `remove_permission` (`permissions.rs:201-212`): drops the first equal entry. -/
def remove (a : PermissionAction) : Permissions → Permissions
  | [] => []
  | p :: ps => if p = a then ps else p :: remove a ps
/-- Models `have_permission` (`permissions.rs:219-226`). -/
def have? (a : PermissionAction) : Permissions → Bool
  | [] => false
  | p :: ps => if p.covers a then true else have? a ps
/-- Models `clear` (`permissions.rs:239-241`). -/
def clear (_ : Permissions) : Permissions := []
end Permissions

/-- The loop body of `convert_function_names_to_permissions` (`mutation_generator.rs:51-61`). -/
def addFunctionName (ps : Permissions) (n : String) : Permissions :=
  Permissions.add (.mutate (.children (.value n .allow)))
    (Permissions.add (.mutate (.name (.value n .allow))) ps)

/-- Models `convert_function_names_to_permissions` (`mutation_generator.rs:47-73`). -/
def functionPermissions (names : List String) : Permissions :=
  let ps :=
    if ¬ names.isEmpty then names.foldl addFunctionName Permissions.new
    else Permissions.add (.mutate (.any .allow)) Permissions.new
  Permissions.add (.visit (.any .allow)) ps

end Mutagenyx
