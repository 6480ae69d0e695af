import Verif.Query
/-!
# Listings, cleanup and users — model of `/repo/datastore/postgres/postgres.go`

The tables of `/repo/db/postgres/schema.go` as lists of rows. A query is a function of the tables; `order by`
is a function parameter that returns some arrangement of the rows sorted by the key (SQL leaves the order of
rows with equal keys open, and it may differ from query to query).
-/

namespace Tork

/-- A row of `jobs_perms` / `scheduled_jobs_perms` (`schema.go:70-75, 115-120`). -/
structure PermRow where
  id : Nat := 0
  jobID : Nat := 0
  userID : Option Nat := none
  roleID : Option Nat := none
  deriving DecidableEq, Repr

/-- The tables (`schema.go`); `userRoles` are the pairs (user_id, role_id); a job's `scheduled_job_id` is
`schedule.id`. -/
structure Rel where
  jobs : List Job := []
  tasks : List Task := []
  logs : List TaskLogPart := []
  perms : List PermRow := []
  users : List User := []
  roles : List Role := []
  userRoles : List (Nat × Nat) := []
  sched : List ScheduledJob := []
  schedPerms : List PermRow := []

/-- `datastore.go:72-78 Page` -/
structure Page (α : Type) where
  items : List α
  number : Nat
  size : Nat
  totalPages : Nat
  totalItems : Nat

/-- `totalPages := *count / size; if *count%size != 0 { totalPages + 1 }`
(`postgres.go:983-986, 1023-1026, 1143-1146, 1479-1482`). -/
def totalPages (count size : Nat) : Nat := if count % size ≠ 0 then count / size + 1 else count / size

/-- `offset (page-1)*size limit size` and the page record built from it (`page ≥ 1` is ensured by the API,
`api.go:455, 505, 602, 760`). -/
def mkPage {α : Type} (sorted : List α) (count page size : Nat) : Page α :=
  let items := (sorted.drop ((page - 1) * size)).take size
  { items := items, number := page, size := items.length, totalPages := totalPages count size, totalItems := count }

/-- The CTEs of `postgres.go:1042-1063`: permission rows that name the user or one of its roles.
Usernames are unique (`schema.go:24`). -/
def permFor (db : Rel) (username : String) (p : PermRow) : Bool :=
  match db.users.find? (·.username = username) with
  | none => false
  | some u =>
    p.userID = some u.id ||
      db.userRoles.any (fun ur => ur.1 = u.id && p.roleID = some ur.2)

/-- The visibility clause of `postgres.go:1071-1076, 1128-1133` and (scheduled) `1421-1425`. -/
def visible (db : Rel) (perms : List PermRow) (username : String) (jobID : Nat) : Bool :=
  username = "" || !(perms.any (·.jobID = jobID)) || perms.any (fun p => p.jobID = jobID && permFor db username p)

/-- The `where` clause of `GetJobs`; `fts` is PostgreSQL full-text matching (`ts @@ plainto_tsquery`). -/
def jobsWhere (fts : Job → List Char → Bool) (db : Rel) (username : String) (q : List Char) (j : Job) : Bool :=
  let (term, tags) := parseQuery q
  (term = [] || fts j term) &&
  (tags = [] || tags.any (fun t => j.tags.contains (String.ofList t))) &&
  visible db db.perms username j.id

/-- `postgres.go:1037-1155 GetJobs` -/
def getJobs (fts : Job → List Char → Bool) (ord : List Job → List Job) (db : Rel) (username : String)
    (q : List Char) (page size : Nat) : Page Job :=
  mkPage (ord (db.jobs.filter (jobsWhere fts db username q)))
    ((db.jobs.filter (jobsWhere fts db username q)).length) page size

/-- `postgres.go:1391-1491 GetScheduledJobs` -/
def getScheduledJobs (ord : List ScheduledJob → List ScheduledJob) (db : Rel) (username : String)
    (page size : Nat) : Page ScheduledJob :=
  mkPage (ord (db.sched.filter fun j => visible db db.schedPerms username j.id))
    ((db.sched.filter fun j => visible db db.schedPerms username j.id).length) page size

/-- `postgres.go:963-995 GetTaskLogParts`: the count ignores the search term. -/
def getTaskLogParts (fts : TaskLogPart → List Char → Bool) (ord : List TaskLogPart → List TaskLogPart) (db : Rel)
    (taskID : Nat) (q : List Char) (page size : Nat) : Page TaskLogPart :=
  let term := (parseQuery q).1
  mkPage (ord (db.logs.filter fun p => p.taskID = taskID && (term = [] || fts p term)))
    ((db.logs.filter fun p => p.taskID = taskID).length) page size

/-- `join tasks t on t.id = tlp.task_id … t.job_id = $1` (`postgres.go:1002-1004, 1017-1020`); `tasks.id` is a
primary key. -/
def logOfJob (db : Rel) (jobID : Nat) (p : TaskLogPart) : Bool :=
  db.tasks.any fun t => t.id = p.taskID && t.jobID = jobID

/-- `postgres.go:997-1035 GetJobLogParts`: the count ignores the search term. -/
def getJobLogParts (fts : TaskLogPart → List Char → Bool) (ord : List TaskLogPart → List TaskLogPart) (db : Rel)
    (jobID : Nat) (q : List Char) (page size : Nat) : Page TaskLogPart :=
  let term := (parseQuery q).1
  mkPage (ord (db.logs.filter fun p => logOfJob db jobID p && (term = [] || fts p term)))
    ((db.logs.filter fun p => logOfJob db jobID p).length) page size

/-! ## API parameters -/

/-- `api.go:497-520`, `594-617`: page and size of the job listings (already parsed by `Atoi`); absent values are
`"1"` and `"10"`. -/
def jobPageParams (page size : Option Int) : Nat × Nat :=
  let p := page.getD 1
  let s := size.getD 10
  ((if p < 1 then 1 else p).toNat, (if s < 1 then 1 else if s > 20 then 20 else s).toNat)

/-- `api.go:447-472, 752-776`: page and size of the log listings; `MAX_LOG_PAGE_SIZE = 100` (`api.go:41`),
default 25. -/
def logPageParams (page size : Option Int) : Nat × Nat :=
  let p := page.getD 1
  let s := size.getD 25
  ((if p < 1 then 1 else p).toNat, (if s < 1 then 1 else if s > 100 then 100 else s).toNat)

/-! ## Cleanup -/

def JobState.terminal : JobState → Bool
  | .completed | .failed | .cancelled => true
  | _ => false

/-- The `where` clause of `postgres.go:922`; `now` and `cutoff = now - retention`. SQL: a null `delete_at`
makes the comparison not true. -/
def expired (now cutoff : Nat) (j : Job) : Bool :=
  (match j.deleteAt with | some d => d < now | none => false) || (j.createdAt < cutoff && j.state.terminal)

/-- `postgres.go:937-961 deleteJobs`. Statement order: permissions, log parts (by a sub-select on tasks),
tasks, jobs. -/
def deleteJobs (ids : List Nat) (db : Rel) : Rel × Nat :=
  if ids = [] then (db, 0)
  else
    let db1 := { db with perms := db.perms.filter fun p => !ids.contains p.jobID }
    let tids := (db1.tasks.filter fun t => ids.contains t.jobID).map (·.id)
    let db2 := { db1 with logs := db1.logs.filter fun l => !tids.contains l.taskID }
    let db3 := { db2 with tasks := db2.tasks.filter fun t => !ids.contains t.jobID }
    let db4 := { db3 with jobs := db3.jobs.filter fun j => !ids.contains j.id }
    (db4, (db3.jobs.filter fun j => ids.contains j.id).length)

/-- `postgres.go:914-935 expungeExpiredJobs`; `pick` is the choice of up to 1000 rows made by
`limit 1000` without an order: any sub-list of the expired rows. -/
def expungeExpiredJobs (pick : List Nat → List Nat) (now cutoff : Nat) (db : Rel) : Rel × Nat :=
  deleteJobs ((pick ((db.jobs.filter (expired now cutoff)).map (·.id))).take 1000) db

/-- `postgres.go:896-912 expungeExpiredTaskLogPart`: `pick` chooses the rows of `limit 1000`. -/
def expungeExpiredLogs (pick : List Nat → List Nat) (cutoff : Nat) (db : Rel) : Rel × Nat :=
  let ids := (pick ((db.logs.filter fun l => match l.createdAt with | some c => c < cutoff | none => false).map
    (·.id))).take 1000
  ({ db with logs := db.logs.filter fun l => !ids.contains l.id }, (db.logs.filter fun l => ids.contains l.id).length)

/-- `scheduled_job_id = $1`, not true for a null column. -/
def instanceOf (id : Nat) (j : Job) : Bool := match j.schedule with | some s => s.id = id | none => false

/-- `postgres.go:1568-1589 DeleteScheduledJob` -/
def deleteScheduledJob (id : Nat) (db : Rel) : Rel :=
  let ids := (db.jobs.filter (instanceOf id)).map (·.id)
  let db := (deleteJobs ids db).1
  { db with
    schedPerms := db.schedPerms.filter fun p => p.jobID ≠ id
    sched := db.sched.filter fun s => s.id ≠ id }

/-! ## Users -/

/-- `postgres.go:1157-1166 GetUser`: by name or by id; `idText` is the id as a string. -/
def getUser (idText : Nat → String) (db : Rel) (uid : String) : Option User :=
  db.users.find? fun u => u.username = uid || idText u.id = uid

/-- `postgres.go:1168-1181 CreateUser`: the row holds the hash only, there is no column for the clear password
(`schema.go:21-28`); the name is unique. -/
def createUser (id now : Nat) (u : User) (db : Rel) : Except Err Rel :=
  if db.users.any (fun r => r.username = u.username || r.id = id) then .error "error inserting user to the db"
  else .ok { db with users := db.users ++ [
    { id := id, name := u.name, username := u.username, passwordHash := u.passwordHash, createdAt := some now }] }

/-- `api.go:863-897 createUser`. `hash` is `hash.Password` (bcrypt with a random salt; `none` on error).
The result is an HTTP error or the user shown to the caller. -/
def apiCreateUser (idText : Nat → String) (hash : String → Option String) (id now : Nat) (req : User)
    (db : Rel) : Except Err User × Rel :=
  let name := trimSpace req.username
  if name = "" then (.error "must provide username", db)
  else
    let pw := trimSpace req.password
    if pw = "" then (.error "must provide password", db)
    else match hash pw with
      | none => (.error "invalid password", db)
      | some h =>
        let u := { req with username := name, passwordHash := h, password := "" }
        match getUser idText db name with
        | some _ => (.error "user already exists", db)
        | none =>
          match createUser id now u db with
          | .error e => (.error e, db)
          | .ok db' => (.ok { u with id := id, createdAt := some now }, db')

end Tork
