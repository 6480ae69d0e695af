import Verif.Rel
/-!
# Roles — model of `/repo/datastore/postgres/postgres.go:1183-1248`

Each operation is one SQL statement on the tables of `Rel`; what the schema refuses (`schema.go:31-49`) is an error and changes nothing.
Ids are numbers; `idText` writes one.
-/

namespace Tork.Roles

/-- `CreateRole` (`postgres.go:1183-1196`): the id is new, the slug is unique (`schema.go:34`). -/
def createRole (id now : Nat) (r : Role) (db : Rel) : Except Err Rel :=
  if db.roles.any (fun x => x.slug = r.slug || x.id = id) then .error "error inserting role to the db"
  else .ok { db with roles := db.roles ++ [{ id := id, slug := r.slug, name := r.name, createdAt := some now }] }

/-- `AssignRole` (`postgres.go:1230-1240`): both must exist, and the pair is unique (`schema.go:44-45, 49`). -/
def assignRole (userID roleID : Nat) (db : Rel) : Except Err Rel :=
  if db.users.any (fun u => u.id = userID) && db.roles.any (fun r => r.id = roleID) && !(db.userRoles.any fun ur => ur = (userID, roleID)) then
    .ok { db with userRoles := db.userRoles ++ [(userID, roleID)] }
  else .error "error inserting role to the db"

/-- `UnassignRole` (`postgres.go:1242-1248`). -/
def unassignRole (userID roleID : Nat) (db : Rel) : Except Err Rel :=
  .ok { db with userRoles := db.userRoles.filter fun ur => !(ur.1 = userID && ur.2 = roleID) }

/-- The join of `GetUserRoles` (`postgres.go:1218-1228`): a row for each pair of a role and an assignment that match. -/
def getUserRoles (userID : Nat) (db : Rel) : List Role :=
  db.roles.flatMap fun r => (db.userRoles.filter fun ur => ur.2 = r.id && ur.1 = userID).map fun _ => r

/-- The rows `GetRole` may answer with (`postgres.go:1198-1204`): it takes the first the database gives. -/
def getRole (idText : Nat → String) (x : String) (db : Rel) : List Role :=
  db.roles.filter fun r => idText r.id = x || r.slug = x

/-- The requests. -/
inductive Op
  | createUser (id now : Nat) (u : User)
  | createRole (id now : Nat) (r : Role)
  | assign (userID roleID : Nat)
  | unassign (userID roleID : Nat)

/-- The tables afterwards; a request that is refused changes nothing. -/
def after (db : Rel) : Op → Rel
  | .createUser id now u => match Tork.createUser id now u db with | .ok d => d | .error _ => db
  | .createRole id now r => match createRole id now r db with | .ok d => d | .error _ => db
  | .assign u r => match assignRole u r db with | .ok d => d | .error _ => db
  | .unassign u r => match unassignRole u r db with | .ok d => d | .error _ => db

/-- One request after the other. -/
def history (db : Rel) (ops : List Op) : Rel := ops.foldl after db

end Tork.Roles
