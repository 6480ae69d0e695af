import Verif.Rel
import Verif.DSLemmas
/-!
# C21, C22, C23, C54, C55 — listings, cleanup and users
-/

namespace Tork

/-! ## C22 Pagination -/

/-- An `order by key desc`: some arrangement of the rows, keys not increasing. -/
def DescBy {α : Type} (key : α → Nat) (ord : List α → List α) : Prop :=
  ∀ l, (ord l).Perm l ∧ (ord l).Pairwise fun a b => key b ≤ key a

theorem desc_unique {α : Type} {key : α → Nat} {l l' : List α} (hp : l.Perm l')
    (h : l.Pairwise fun a b => key b ≤ key a) (h' : l'.Pairwise fun a b => key b ≤ key a)
    (hd : (l.map key).Nodup) : l = l' := by
  have strict : ∀ m : List α, (m.map key).Nodup → m.Pairwise (fun a b => key b ≤ key a) →
      m.Pairwise fun a b => key b < key a := by
    intro m hm hle
    rw [List.Nodup, List.pairwise_map] at hm
    exact (hm.and hle).imp fun h => by have := h.1; have := h.2; omega
  have hd' : (l'.map key).Nodup := (hp.map key).nodup_iff.1 hd
  refine List.Perm.eq_of_pairwise (le := fun a b => key b < key a) ?_ (strict l hd h) (strict l' hd' h') hp
  intro a b _ _ h1 h2
  omega

theorem chunks {α : Type} (l : List α) (size n : Nat) :
    ((List.range n).flatMap fun i => (l.drop (i * size)).take size) = l.take (n * size) := by
  induction n with
  | zero => simp
  | succ n ih =>
    rw [List.range_succ, List.flatMap_append, ih]
    simp only [List.flatMap_cons, List.flatMap_nil, List.append_nil]
    rw [show (n + 1) * size = n * size + size by rw [Nat.add_mul, Nat.one_mul], List.take_add]

theorem totalPages_spec {count size : Nat} (h : 0 < size) :
    count ≤ totalPages count size * size ∧ (∀ n, count ≤ n * size → totalPages count size ≤ n) := by
  have hdm := Nat.div_add_mod count size
  have hlt := Nat.mod_lt count h
  unfold totalPages
  by_cases h0 : count % size ≠ 0
  · rw [if_pos h0]
    refine ⟨?_, fun n hn => ?_⟩
    · rw [Nat.add_mul, Nat.one_mul, Nat.mul_comm]; omega
    · apply Classical.byContradiction
      intro hc
      have h1 : n ≤ count / size := by omega
      have h2 : n * size ≤ count / size * size := Nat.mul_le_mul_right _ h1
      rw [Nat.mul_comm (count / size)] at h2
      omega
  · rw [if_neg h0]
    have h0' : count % size = 0 := by omega
    refine ⟨?_, fun n hn => ?_⟩
    · rw [Nat.mul_comm]; omega
    · apply Classical.byContradiction
      intro hc
      have h1 : n + 1 ≤ count / size := by omega
      have h2 : (n + 1) * size ≤ count / size * size := Nat.mul_le_mul_right _ h1
      rw [Nat.mul_comm (count / size), Nat.add_mul] at h2
      omega

/-- What "pages 1..totalPages are a partition of the listing" means. -/
structure Partition {α : Type} (page : Nat → Page α) (size : Nat) (listing : List α) : Prop where
  /-- reading the pages one after the other gives the listing: every item once, in order -/
  all : ((List.range (page 1).totalPages).flatMap fun i => (page (i + 1)).items) = listing
  /-- later pages are empty -/
  beyond : ∀ n, (page 1).totalPages < n → (page n).items = []
  /-- every page reports the same totals: the number of items and the least number of pages that hold them -/
  items : ∀ n, (page n).totalItems = listing.length
  enough : ∀ n, listing.length ≤ (page n).totalPages * size
  least : ∀ n m, listing.length ≤ m * size → (page n).totalPages ≤ m
  /-- a page is never longer than asked for and says how long it is -/
  short : ∀ n, (page n).items.length ≤ size ∧ (page n).size = (page n).items.length ∧ (page n).number = n

theorem mkPage_partition {α : Type} {l : List α} {size : Nat} (h : 0 < size) (page : Nat → Page α)
    (hp : ∀ n, page n = mkPage l l.length n size) : Partition page size l := by
  obtain ⟨h1, h2⟩ := totalPages_spec (count := l.length) h
  refine ⟨?_, ?_, ?_, ?_, ?_, ?_⟩
  · simp only [hp]
    have := chunks l size (totalPages l.length size)
    rw [List.take_of_length_le h1] at this
    simp only [mkPage, Nat.add_sub_cancel]
    exact this
  · intro n hn
    rw [hp] at hn ⊢
    simp only [mkPage] at hn ⊢
    rw [List.drop_eq_nil_of_le, List.take_nil]
    exact Nat.le_trans h1 (Nat.mul_le_mul_right _ (by omega))
  · intro n; rw [hp]; rfl
  · intro n; rw [hp]; exact h1
  · intro n m hm; rw [hp]; exact h2 m hm
  · intro n; rw [hp]; refine ⟨?_, rfl, rfl⟩
    simp only [mkPage, List.length_take]; omega

/-- The general fact behind all listings: whatever arrangement each of the page queries uses, if the sort keys
of the matching rows are distinct, the pages partition the sorted matching rows. -/
theorem desc_partition {α : Type} {key : α → Nat} {rows : List α} {size : Nat} (h : 0 < size)
    (ords : Nat → List α → List α) (ho : ∀ n, DescBy key (ords n)) (hd : (rows.map key).Nodup) (page : Nat → Page α)
    (hp : ∀ n, page n = mkPage (ords n rows) rows.length n size) :
    ∃ listing : List α, listing.Perm rows ∧ (listing.Pairwise fun a b => key b < key a) ∧
      Partition page size listing := by
  refine ⟨ords 0 rows, (ho 0 rows).1, ?_, mkPage_partition h page fun n => ?_⟩
  · have hn : ((ords 0 rows).map key).Nodup := (((ho 0 rows).1).map key).nodup_iff.2 hd
    rw [List.Nodup, List.pairwise_map] at hn
    exact (hn.and (ho 0 rows).2).imp fun h => by have := h.1; have := h.2; omega
  · have : ords n rows = ords 0 rows :=
      desc_unique (((ho n rows).1).trans ((ho 0 rows).1).symm) (ho n rows).2 (ho 0 rows).2
        ((((ho n rows).1).map key).nodup_iff.2 hd)
    rw [hp, this, ((ho 0 rows).1).length_eq]

/-! ## C23 Visibility -/

/-- The user named `name` may see a job: it has no permission rows, or one naming the user or a role of it. -/
def MaySee (db : Rel) (perms : List PermRow) (name : String) (jobID : Nat) : Prop :=
  (∀ p ∈ perms, p.jobID ≠ jobID) ∨
  ∃ u ∈ db.users, u.username = name ∧ ∃ p ∈ perms, p.jobID = jobID ∧
    (p.userID = some u.id ∨ ∃ r, (u.id, r) ∈ db.userRoles ∧ p.roleID = some r)

/-- `schema.go:24`: user names are unique. -/
def Rel.NamesUnique (db : Rel) : Prop := (db.users.map (·.username)).Nodup

theorem find_name {l : List User} {u : User} (h : (l.map (·.username)).Nodup) (hu : u ∈ l) :
    l.find? (fun x => x.username = u.username) = some u := by
  induction l with
  | nil => cases hu
  | cons a l ih =>
    rw [List.map_cons, List.nodup_cons] at h
    rcases List.mem_cons.1 hu with rfl | hu
    · simp
    · have hne : a.username ≠ u.username := fun he => h.1 (List.mem_map.2 ⟨u, hu, he.symm⟩)
      rw [List.find?_cons_of_neg (by simpa using hne)]
      exact ih h.2 hu

theorem visible_iff {db : Rel} {perms : List PermRow} {name : String} {jobID : Nat} (hu : db.NamesUnique)
    (hn : name ≠ "") : visible db perms name jobID = true ↔ MaySee db perms name jobID := by
  unfold visible MaySee
  simp only [hn, decide_false, Bool.false_or, Bool.or_eq_true, Bool.not_eq_true', List.any_eq_false, List.any_eq_true,
    decide_eq_true_eq, Bool.and_eq_true]
  refine or_congr Iff.rfl ⟨?_, ?_⟩
  · rintro ⟨p, hp, h1, h2⟩
    unfold permFor at h2
    split at h2
    · cases h2
    · rename_i u hf
      have hmem := List.mem_of_find?_eq_some hf
      have hname := List.find?_some hf
      simp only [decide_eq_true_eq] at hname
      refine ⟨u, hmem, hname, p, hp, h1, ?_⟩
      simp only [Bool.or_eq_true, decide_eq_true_eq, List.any_eq_true, Bool.and_eq_true] at h2
      rcases h2 with h2 | ⟨⟨a, r⟩, h3, h4, h5⟩
      · exact .inl h2
      · simp only at h4 h5
        subst h4
        exact .inr ⟨r, h3, h5⟩
  · rintro ⟨u, hm, rfl, p, hp, h1, h2⟩
    refine ⟨p, hp, h1, ?_⟩
    unfold permFor
    rw [find_name hu hm]
    simp only [Bool.or_eq_true, decide_eq_true_eq, List.any_eq_true, Bool.and_eq_true]
    rcases h2 with h2 | ⟨r, h3, h5⟩
    · exact .inl h2
    · exact .inr ⟨(u.id, r), h3, rfl, h5⟩

/-- The search condition of a listing request, in terms of the parsed query (C49). -/
def MatchesSearch (fts : Job → List Char → Bool) (q : List Char) (j : Job) : Prop :=
  ((parseQuery q).1 = [] ∨ fts j (parseQuery q).1 = true) ∧
  ((parseQuery q).2 = [] ∨ ∃ t ∈ (parseQuery q).2, String.ofList t ∈ j.tags)

theorem jobsWhere_iff {fts : Job → List Char → Bool} {db : Rel} {name : String} {q : List Char} {j : Job} :
    jobsWhere fts db name q j = true ↔ MatchesSearch fts q j ∧ visible db db.perms name j.id = true := by
  unfold jobsWhere MatchesSearch
  simp only [Bool.and_eq_true, Bool.or_eq_true, decide_eq_true_eq, List.any_eq_true, List.contains_iff_mem]

/-- The jobs a user may see and that match the search. -/
def Listed (fts : Job → List Char → Bool) (db : Rel) (name : String) (q : List Char) (j : Job) : Prop :=
  j ∈ db.jobs ∧ MatchesSearch fts q j ∧ (name = "" ∨ MaySee db db.perms name j.id)

theorem listed_iff {fts : Job → List Char → Bool} {db : Rel} {name : String} {q : List Char} {j : Job}
    (hu : db.NamesUnique) : j ∈ db.jobs.filter (jobsWhere fts db name q) ↔ Listed fts db name q j := by
  rw [List.mem_filter, jobsWhere_iff]
  unfold Listed
  refine and_congr Iff.rfl (and_congr Iff.rfl ?_)
  by_cases hn : name = ""
  · subst hn; simp [visible]
  · rw [visible_iff hu hn]; simp [hn]

/-- **C22/C23 for jobs.** A user pages through the jobs, each page being a separate query. If no two matching jobs
have the same creation time, the pages partition a listing that consists of exactly the job rows the user may see
and that match the search, newest first. (An empty user name is the system itself: it sees all jobs.) -/
theorem C22_jobs (fts : Job → List Char → Bool) (db : Rel) (name : String) (q : List Char) (size : Nat)
    (ords : Nat → List Job → List Job) (ho : ∀ n, DescBy Job.createdAt (ords n)) (hs : 0 < size)
    (hu : db.NamesUnique) (hd : ((db.jobs.filter (jobsWhere fts db name q)).map Job.createdAt).Nodup) :
    ∃ listing : List Job, (∀ j, j ∈ listing ↔ Listed fts db name q j) ∧
      (listing.Pairwise fun a b => b.createdAt < a.createdAt) ∧
      Partition (fun n => getJobs fts (ords n) db name q n size) size listing := by
  obtain ⟨l, h1, h2, h3⟩ := desc_partition hs ords ho hd (fun n => getJobs fts (ords n) db name q n size)
    (fun n => rfl)
  exact ⟨l, fun j => by rw [h1.mem_iff]; exact listed_iff hu, h2, h3⟩

/-- The same for scheduled jobs. -/
theorem C22_scheduled_jobs (db : Rel) (name : String) (size : Nat)
    (ords : Nat → List ScheduledJob → List ScheduledJob) (ho : ∀ n, DescBy ScheduledJob.createdAt (ords n))
    (hs : 0 < size) (hu : db.NamesUnique)
    (hd : ((db.sched.filter fun j => visible db db.schedPerms name j.id).map ScheduledJob.createdAt).Nodup) :
    ∃ listing : List ScheduledJob,
      (∀ j, j ∈ listing ↔ j ∈ db.sched ∧ (name = "" ∨ MaySee db db.schedPerms name j.id)) ∧
      (listing.Pairwise fun a b => b.createdAt < a.createdAt) ∧
      Partition (fun n => getScheduledJobs (ords n) db name n size) size listing := by
  obtain ⟨l, h1, h2, h3⟩ := desc_partition hs ords ho hd (fun n => getScheduledJobs (ords n) db name n size)
    (fun n => rfl)
  refine ⟨l, fun j => ?_, h2, h3⟩
  rw [h1.mem_iff, List.mem_filter]
  refine and_congr Iff.rfl ?_
  by_cases hn : name = ""
  · subst hn; simp [visible]
  · rw [visible_iff hu hn]; simp [hn]

theorem filter_no_term {α : Type} (l : List α) (p : α → Bool) (x : α → List Char → Bool) {term : List Char}
    (h : term = []) : l.filter (fun a => p a && (term = [] || x a term)) = l.filter p := by
  subst h; simp

/-- The log of a task, without a search term and with distinct part numbers: pages partition the parts, last part
first. -/
theorem C22_task_log (fts : TaskLogPart → List Char → Bool) (db : Rel) (taskID : Nat) (q : List Char) (size : Nat)
    (ords : Nat → List TaskLogPart → List TaskLogPart) (ho : ∀ n, DescBy TaskLogPart.number (ords n)) (hs : 0 < size)
    (hq : (parseQuery q).1 = [])
    (hd : ((db.logs.filter fun p => p.taskID = taskID).map TaskLogPart.number).Nodup) :
    ∃ listing : List TaskLogPart, (∀ p, p ∈ listing ↔ p ∈ db.logs ∧ p.taskID = taskID) ∧
      (listing.Pairwise fun a b => b.number < a.number) ∧
      Partition (fun n => getTaskLogParts fts (ords n) db taskID q n size) size listing := by
  obtain ⟨l, h1, h2, h3⟩ := desc_partition hs ords ho hd (fun n => getTaskLogParts fts (ords n) db taskID q n size)
    (fun n => by simp only [getTaskLogParts]; rw [filter_no_term _ _ _ hq])
  exact ⟨l, fun p => by rw [h1.mem_iff, List.mem_filter]; simp, h2, h3⟩

/-- The log of a job is sorted by task position, task creation time, part number and part creation time
(`postgres.go:1005`): any arrangement that resolves ties consistently gives a partition into pages. -/
theorem C22_job_log (fts : TaskLogPart → List Char → Bool) (db : Rel) (jobID : Nat) (q : List Char) (size : Nat)
    (ord : List TaskLogPart → List TaskLogPart) (ho : ∀ l, (ord l).Perm l) (hs : 0 < size)
    (hq : (parseQuery q).1 = []) :
    ∃ listing : List TaskLogPart,
      (∀ p, p ∈ listing ↔ p ∈ db.logs ∧ ∃ t ∈ db.tasks, t.id = p.taskID ∧ t.jobID = jobID) ∧
      Partition (fun n => getJobLogParts fts ord db jobID q n size) size listing := by
  refine ⟨ord (db.logs.filter fun p => logOfJob db jobID p), fun p => ?_, ?_⟩
  · rw [(ho _).mem_iff, List.mem_filter]
    simp [logOfJob]
  · refine mkPage_partition hs _ fun n => ?_
    simp only [getJobLogParts]
    rw [filter_no_term _ _ _ hq, (ho _).length_eq]

/-- The page numbers and sizes that reach the database are always positive and bounded. -/
theorem C22_params (page size : Option Int) :
    (1 ≤ (jobPageParams page size).1 ∧ 1 ≤ (jobPageParams page size).2 ∧ (jobPageParams page size).2 ≤ 20) ∧
    (1 ≤ (logPageParams page size).1 ∧ 1 ≤ (logPageParams page size).2 ∧ (logPageParams page size).2 ≤ 100) := by
  unfold jobPageParams logPageParams
  refine ⟨⟨?_, ?_, ?_⟩, ?_, ?_, ?_⟩ <;> simp only <;> split <;> (try split) <;> omega

/-- Requests within the bounds are taken as they are. -/
theorem C22_params_kept (page size : Nat) (hp : 1 ≤ page) (hs : 1 ≤ size) :
    (size ≤ 20 → jobPageParams (some page) (some size) = (page, size)) ∧
    (size ≤ 100 → logPageParams (some page) (some size) = (page, size)) := by
  unfold jobPageParams logPageParams
  simp only [Option.getD_some]
  constructor
  · intro h
    rw [if_neg (by omega), if_neg (by omega), if_neg (by omega)]; simp
  · intro h
    rw [if_neg (by omega), if_neg (by omega), if_neg (by omega)]; simp

/-- Insertion sort, newest first: a possible `order by created_at desc`. -/
def insNewest (a : Job) : List Job → List Job
  | [] => [a]
  | b :: l => if b.createdAt ≤ a.createdAt then a :: b :: l else b :: insNewest a l

def sortNewest : List Job → List Job
  | [] => []
  | a :: l => insNewest a (sortNewest l)

theorem insNewest_perm (a : Job) (l : List Job) : (insNewest a l).Perm (a :: l) := by
  induction l with
  | nil => exact .refl _
  | cons b l ih =>
    unfold insNewest
    split
    · exact .refl _
    · exact (ih.cons b).trans (.swap a b l)

theorem sortNewest_perm (l : List Job) : (sortNewest l).Perm l := by
  induction l with
  | nil => exact .refl _
  | cons a l ih => exact (insNewest_perm a _).trans (ih.cons a)

theorem sortNewest_sorted (l : List Job) : (sortNewest l).Pairwise fun a b => b.createdAt ≤ a.createdAt := by
  induction l with
  | nil => exact .nil
  | cons a l ih =>
    unfold sortNewest
    generalize sortNewest l = m at ih
    induction m with
    | nil => simp [insNewest]
    | cons b m ihm =>
      unfold insNewest
      rw [List.pairwise_cons] at ih
      split
      · rename_i h
        refine List.pairwise_cons.2 ⟨?_, List.pairwise_cons.2 ih⟩
        intro x hx
        rcases List.mem_cons.1 hx with hx | hx
        · rw [hx]; exact h
        · exact Nat.le_trans (ih.1 x hx) h
      · rename_i h
        refine List.pairwise_cons.2 ⟨?_, ihm ih.2⟩
        intro x hx
        rcases List.mem_cons.1 ((insNewest_perm a m).mem_iff.1 hx) with hx | hx
        · rw [hx]; omega
        · exact ih.1 x hx

theorem sortNewest_desc : DescBy Job.createdAt sortNewest := fun l => ⟨sortNewest_perm l, sortNewest_sorted l⟩

theorem sortNewest_rev_desc : DescBy Job.createdAt (fun l => sortNewest l.reverse) :=
  fun l => ⟨(sortNewest_perm _).trans (List.reverse_perm l), sortNewest_sorted _⟩

/-- Two jobs created at the same instant. -/
def tiedDb : Rel := { jobs := [{ id := 1 }, { id := 2 }] }
/-- The arrangement used by the query for page `n`. -/
def tiedOrd (n : Nat) : List Job → List Job := if n = 1 then sortNewest else fun l => sortNewest l.reverse

/-- **Negation for equal creation times.** `order by created_at` leaves the order of jobs created at the same
instant open. If two page queries arrange them differently, a job can be missing from all pages. -/
theorem C22_ties_lose_items :
    (∀ n, DescBy Job.createdAt (tiedOrd n)) ∧ Listed (fun _ _ => true) tiedDb "" [] { id := 2 } ∧
    (∀ n, (getJobs (fun _ _ => true) (tiedOrd n) tiedDb "" [] n 1).totalPages = 2) ∧
    ∀ n, (1 ≤ n ∧ n ≤ 2) →
      ∀ x ∈ (getJobs (fun _ _ => true) (tiedOrd n) tiedDb "" [] n 1).items, x.id ≠ 2 := by
  refine ⟨?_, ⟨by simp [tiedDb], ⟨.inl rfl, .inl rfl⟩, .inl rfl⟩, fun n => rfl, ?_⟩
  · intro n
    unfold tiedOrd
    by_cases h : n = 1
    · rw [if_pos h]; exact sortNewest_desc
    · rw [if_neg h]; exact sortNewest_rev_desc
  · intro n hn x hx
    obtain rfl | rfl : n = 1 ∨ n = 2 := by omega
    all_goals
      have h := List.mem_map_of_mem (f := Job.id) hx
      revert h
      generalize x.id = i
      revert i
    · have : (getJobs (fun _ _ => true) (tiedOrd 1) tiedDb "" [] 1 1).items.map Job.id = [1] := by decide +kernel
      rw [this]; intro i h; simp at h; omega
    · have : (getJobs (fun _ _ => true) (tiedOrd 2) tiedDb "" [] 2 1).items.map Job.id = [1] := by decide +kernel
      rw [this]; intro i h; simp at h; omega

/-- **Negation for log searches.** With a search term the totals still count all parts of the task: the request
reports 3 items on 3 pages although no part matches. -/
theorem C22_log_search_totals_wrong :
    let db : Rel := { logs := [{ id := 1, number := 1, taskID := 7 }, { id := 2, number := 2, taskID := 7 },
      { id := 3, number := 3, taskID := 7 }] }
    let page := getTaskLogParts (fun _ _ => false) (fun l => l) db 7 "nothing".toList 1 1
    page.items = [] ∧ page.totalItems = 3 ∧ page.totalPages = 3 := by
  decide +kernel

/-- A case that meets the hypotheses of `C22_jobs`: a user with a role, four jobs of which three are visible. -/
def listEx : Rel :=
  { jobs := [{ id := 1, createdAt := 10 }, { id := 2, createdAt := 20 }, { id := 3, createdAt := 30, tags := ["x"] },
      { id := 4, createdAt := 40 }]
    users := [{ id := 5, username := "ann" }, { id := 6, username := "bob" }], userRoles := [(5, 9)]
    perms := [{ id := 1, jobID := 2, userID := some 6 }, { id := 2, jobID := 3, userID := some 5 },
      { id := 3, jobID := 4, roleID := some 9 }] }

example : listEx.NamesUnique ∧
    ((listEx.jobs.filter (jobsWhere (fun _ _ => true) listEx "ann" [])).map Job.createdAt).Nodup ∧
    ((getJobs (fun _ _ => true) sortNewest listEx "ann" [] 1 2).items.map (·.id) = [4, 3]) ∧
    ((getJobs (fun _ _ => true) sortNewest listEx "ann" [] 2 2).items.map (·.id) = [1]) ∧
    ((getJobs (fun _ _ => true) sortNewest listEx "bob" [] 1 5).items.map (·.id) = [2, 1]) ∧
    ((getJobs (fun _ _ => true) sortNewest listEx "ann" "tag:x".toList 1 5).items.map (·.id) = [3]) := by
  unfold Rel.NamesUnique; decide +kernel

/-! ## C23, C55 -/

theorem mem_page {α : Type} {l : List α} {c p s : Nat} {x : α} (h : x ∈ (mkPage l c p s).items) : x ∈ l :=
  List.mem_of_mem_drop (List.mem_of_mem_take h)

/-- **C23.** A named user is shown a job on some page of a listing without search exactly if the job has no
permissions, or one for the user, or one for a role of the user; the total counts exactly these rows. -/
theorem C23_visibility (fts : Job → List Char → Bool) (db : Rel) (name : String) (ord : List Job → List Job)
    (ho : DescBy Job.createdAt ord) (hu : db.NamesUnique) (hn : name ≠ "") (size : Nat) (hs : 0 < size) :
    (∀ j, (∃ n, j ∈ (getJobs fts ord db name [] n size).items) ↔ j ∈ db.jobs ∧ MaySee db db.perms name j.id) ∧
    (∃ shown : List Job, shown.Sublist db.jobs ∧ (∀ j, j ∈ shown ↔ j ∈ db.jobs ∧ MaySee db db.perms name j.id) ∧
      ∀ n, (getJobs fts ord db name [] n size).totalItems = shown.length) := by
  have hL : ∀ j, j ∈ db.jobs.filter (jobsWhere fts db name []) ↔ j ∈ db.jobs ∧ MaySee db db.perms name j.id := by
    intro j
    rw [listed_iff hu]
    unfold Listed
    have : MatchesSearch fts [] j := ⟨.inl rfl, .inl rfl⟩
    simp [this, hn]
  refine ⟨fun j => ⟨?_, ?_⟩, db.jobs.filter (jobsWhere fts db name []), List.filter_sublist, hL, fun n => rfl⟩
  · rintro ⟨n, hj⟩
    exact (hL j).1 ((ho _).1.mem_iff.1 (mem_page hj))
  · intro hj
    have hp := mkPage_partition (l := ord (db.jobs.filter (jobsWhere fts db name []))) hs
      (fun n => getJobs fts ord db name [] n size) (fun n => by
        simp only [getJobs, (ho _).1.length_eq])
    have hm : j ∈ ord (db.jobs.filter (jobsWhere fts db name [])) := (ho _).1.mem_iff.2 ((hL j).2 hj)
    rw [← hp.all] at hm
    obtain ⟨i, _, hi⟩ := List.mem_flatMap.1 hm
    exact ⟨i + 1, hi⟩

/-- The scheduled jobs of a listing. -/
theorem C23_scheduled_visibility (db : Rel) (name : String) (ord : List ScheduledJob → List ScheduledJob)
    (ho : DescBy ScheduledJob.createdAt ord) (hu : db.NamesUnique) (hn : name ≠ "") (n size : Nat) :
    (∀ j ∈ (getScheduledJobs ord db name n size).items, j ∈ db.sched ∧ MaySee db db.schedPerms name j.id) ∧
    ∃ shown : List ScheduledJob, shown.Sublist db.sched ∧
      (∀ j, j ∈ shown ↔ j ∈ db.sched ∧ MaySee db db.schedPerms name j.id) ∧
      (getScheduledJobs ord db name n size).totalItems = shown.length := by
  have hL : ∀ j, j ∈ db.sched.filter (fun j => visible db db.schedPerms name j.id) ↔
      j ∈ db.sched ∧ MaySee db db.schedPerms name j.id := by
    intro j; rw [List.mem_filter, visible_iff hu hn]
  exact ⟨fun j hj => (hL j).1 ((ho _).1.mem_iff.1 (mem_page hj)), _, List.filter_sublist, hL, rfl⟩

/-- **C55.** Whatever search string, page and size a named user gives, every job shown is one the user may see, and
one that would be shown without the search; and the total is not larger than without the search. -/
theorem C55_search_narrows (fts : Job → List Char → Bool) (db : Rel) (name : String) (ord : List Job → List Job)
    (ho : DescBy Job.createdAt ord) (hu : db.NamesUnique) (hn : name ≠ "") (q : List Char) (n size : Nat) :
    (∀ j ∈ (getJobs fts ord db name q n size).items,
      j ∈ db.jobs ∧ MaySee db db.perms name j.id ∧ MatchesSearch fts q j) ∧
    (getJobs fts ord db name q n size).totalItems ≤ (getJobs fts ord db name [] n size).totalItems := by
  refine ⟨fun j hj => ?_, ?_⟩
  · have := (listed_iff hu).1 ((ho _).1.mem_iff.1 (mem_page hj))
    refine ⟨this.1, ?_, this.2.1⟩
    rcases this.2.2 with h | h
    · exact absurd h hn
    · exact h
  · simp only [getJobs, mkPage]
    have : db.jobs.filter (jobsWhere fts db name q) =
        (db.jobs.filter (jobsWhere fts db name [])).filter (jobsWhere fts db name q) := by
      rw [List.filter_filter]
      apply List.filter_congr
      intro j _
      cases h : jobsWhere fts db name q j with
      | false => rfl
      | true =>
        have h2 := (jobsWhere_iff.1 h).2
        have : jobsWhere fts db name [] j = true := jobsWhere_iff.2 ⟨⟨.inl rfl, .inl rfl⟩, h2⟩
        rw [this]; rfl
    rw [this]
    exact List.length_filter_le _ _

/-! ## C21 Cleanup -/

/-- The foreign keys of the schema. -/
structure Rel.Integrity (db : Rel) : Prop where
  tasks : ∀ t ∈ db.tasks, ∃ j ∈ db.jobs, j.id = t.jobID
  logs : ∀ l ∈ db.logs, ∃ t ∈ db.tasks, t.id = l.taskID
  perms : ∀ p ∈ db.perms, ∃ j ∈ db.jobs, j.id = p.jobID
  sched : ∀ j ∈ db.jobs, ∀ s, j.schedule = some s → ∃ x ∈ db.sched, x.id = s.id
  schedPerms : ∀ p ∈ db.schedPerms, ∃ s ∈ db.sched, s.id = p.jobID

/-- `db'` is `db` without the jobs `gone` and everything that belongs to them, and nothing else changed:
a row is kept iff its job (for a log part: its task's job) is not gone. -/
structure Without (db : Rel) (gone : Nat → Prop) (db' : Rel) : Prop where
  jobs : ∀ j, j ∈ db'.jobs ↔ j ∈ db.jobs ∧ ¬ gone j.id
  tasks : ∀ t, t ∈ db'.tasks ↔ t ∈ db.tasks ∧ ¬ gone t.jobID
  logs : ∀ l, l ∈ db'.logs ↔ l ∈ db.logs ∧ ¬ ∃ t ∈ db.tasks, t.id = l.taskID ∧ gone t.jobID
  perms : ∀ p, p ∈ db'.perms ↔ p ∈ db.perms ∧ ¬ gone p.jobID
  order : db'.jobs.Sublist db.jobs ∧ db'.tasks.Sublist db.tasks ∧ db'.logs.Sublist db.logs ∧
    db'.perms.Sublist db.perms
  rest : db'.users = db.users ∧ db'.roles = db.roles ∧ db'.userRoles = db.userRoles

theorem deleteJobs_without (ids : List Nat) (db : Rel) :
    Without db (· ∈ ids) (deleteJobs ids db).1 ∧ (deleteJobs ids db).1.sched = db.sched ∧
      (deleteJobs ids db).1.schedPerms = db.schedPerms := by
  unfold deleteJobs
  by_cases h : ids = []
  · subst h
    simp only [if_true]
    refine ⟨⟨?_, ?_, ?_, ?_, ?_, ?_⟩, ?_, ?_⟩ <;> simp
  · rw [if_neg h]
    refine ⟨⟨?_, ?_, ?_, ?_, ?_, ?_⟩, rfl, rfl⟩
    · intro j; simp [List.mem_filter]
    · intro j; simp [List.mem_filter]
    · intro l
      simp only [List.mem_filter, List.contains_eq_mem, decide_eq_true_eq, List.mem_map, Bool.not_eq_true',
        decide_eq_false_iff_not, not_exists, not_and]
      refine and_congr Iff.rfl ⟨fun h t ht he hg => h t ⟨ht, hg⟩ he, fun h t ht he => h t ht.1 he ht.2⟩
    · intro p; simp [List.mem_filter]
    · exact ⟨List.filter_sublist, List.filter_sublist, List.filter_sublist, List.filter_sublist⟩
    · exact ⟨rfl, rfl, rfl⟩

theorem integrity_without {db db' : Rel} {gone : Nat → Prop} (h : Without db gone db') (hi : db.Integrity)
    (hs : db'.sched = db.sched) (hsp : db'.schedPerms = db.schedPerms) : db'.Integrity := by
  refine ⟨?_, ?_, ?_, ?_, ?_⟩
  · intro t ht
    obtain ⟨h1, h2⟩ := (h.tasks t).1 ht
    obtain ⟨j, hj, he⟩ := hi.tasks t h1
    exact ⟨j, (h.jobs j).2 ⟨hj, by rw [he]; exact h2⟩, he⟩
  · intro l hl
    obtain ⟨h1, h2⟩ := (h.logs l).1 hl
    obtain ⟨t, ht, he⟩ := hi.logs l h1
    exact ⟨t, (h.tasks t).2 ⟨ht, fun hg => h2 ⟨t, ht, he, hg⟩⟩, he⟩
  · intro p hp
    obtain ⟨h1, h2⟩ := (h.perms p).1 hp
    obtain ⟨j, hj, he⟩ := hi.perms p h1
    exact ⟨j, (h.jobs j).2 ⟨hj, by rw [he]; exact h2⟩, he⟩
  · intro j hj s hjs
    rw [hs]; exact hi.sched j ((h.jobs j).1 hj).1 s hjs
  · rw [hsp, hs]; exact hi.schedPerms

/-- A job that may be removed: its deletion time passed, or it is finished and older than the retention period. -/
def Removable (now cutoff : Nat) (j : Job) : Prop :=
  (∃ d, j.deleteAt = some d ∧ d < now) ∨
  (j.createdAt < cutoff ∧ (j.state = .completed ∨ j.state = .failed ∨ j.state = .cancelled))

theorem expired_iff {now cutoff : Nat} {j : Job} : expired now cutoff j = true ↔ Removable now cutoff j := by
  unfold expired Removable
  rw [Bool.or_eq_true, Bool.and_eq_true]
  refine or_congr ?_ (and_congr (by simp) ?_)
  · cases j.deleteAt <;> simp
  · cases j.state <;> simp [JobState.terminal]

theorem nodup_length_le {l m : List Nat} (h : l.Nodup) (hs : l ⊆ m) : l.length ≤ m.length := by
  induction l generalizing m with
  | nil => simp
  | cons a l ih =>
    rw [List.nodup_cons] at h
    have ha : a ∈ m := hs (by simp)
    have h1 : l ⊆ m.erase a := by
      intro x hx
      have hne : x ≠ a := fun hc => h.1 (hc ▸ hx)
      exact (List.mem_erase_of_ne hne).2 (hs (by simp [hx]))
    have := ih h.2 h1
    rw [List.length_erase_of_mem ha] at this
    have : 0 < m.length := List.length_pos_of_mem ha
    simp only [List.length_cons]; omega

theorem filter_split {α : Type} (l : List α) (p : α → Bool) :
    (l.filter fun a => !p a).length + (l.filter p).length = l.length := by
  induction l with
  | nil => rfl
  | cons a l ih => cases h : p a <;> simp [h] <;> omega

theorem countRemoved (ids : List Nat) (l : List Job) (hn : (l.map (·.id)).Nodup) :
    (l.filter fun j => ids.contains j.id).length ≤ ids.length := by
  have h1 : ((l.filter fun j => ids.contains j.id).map (·.id)).Nodup := (hn.sublist (List.filter_sublist.map _))
  have h2 : ((l.filter fun j => ids.contains j.id).map (·.id)) ⊆ ids := by
    intro x hx
    obtain ⟨j, hj, rfl⟩ := List.mem_map.1 hx
    simpa using (List.mem_filter.1 hj).2
  have := nodup_length_le h1 h2
  simpa using this

/-- **C21.** One cleanup run removes a set of at most 1000 jobs together with all their tasks, log parts and
permissions and nothing else; every removed job was removable; if at most 1000 jobs are removable, all of them are
removed; the reported number is the number of removed jobs; foreign keys stay intact. -/
theorem C21_expunge (pick : List Nat → List Nat) (hpick : ∀ l, (pick l).Perm l) (now cutoff : Nat) (db : Rel)
    (hi : db.Integrity) (hj : (db.jobs.map (·.id)).Nodup) :
    ∃ gone : Nat → Prop,
      Without db gone (expungeExpiredJobs pick now cutoff db).1 ∧
      (expungeExpiredJobs pick now cutoff db).1.Integrity ∧
      (∀ j ∈ db.jobs, gone j.id → Removable now cutoff j) ∧
      ((db.jobs.filter (expired now cutoff)).length ≤ 1000 → ∀ j ∈ db.jobs, Removable now cutoff j → gone j.id) ∧
      (expungeExpiredJobs pick now cutoff db).2 ≤ 1000 ∧
      (expungeExpiredJobs pick now cutoff db).1.jobs.length + (expungeExpiredJobs pick now cutoff db).2 =
        db.jobs.length := by
  unfold expungeExpiredJobs
  generalize hids : (pick ((db.jobs.filter (expired now cutoff)).map (·.id))).take 1000 = ids
  have hw := deleteJobs_without ids db
  have hmem : ∀ i ∈ ids, ∃ j ∈ db.jobs, expired now cutoff j = true ∧ j.id = i := by
    intro i hi
    rw [← hids] at hi
    have := (hpick _).mem_iff.1 (List.mem_of_mem_take hi)
    obtain ⟨j, hj, he⟩ := List.mem_map.1 this
    exact ⟨j, (List.mem_filter.1 hj).1, (List.mem_filter.1 hj).2, he⟩
  refine ⟨(· ∈ ids), hw.1, integrity_without hw.1 hi hw.2.1 hw.2.2, ?_, ?_, ?_, ?_⟩
  · intro j hjm hg
    obtain ⟨j', hj', he, hid⟩ := hmem _ hg
    have : j' = j := by
      have h1 := find?_of_nodup Job.id hj hj'
      have h2 := find?_of_nodup Job.id hj hjm
      rw [hid, h2] at h1
      exact (Option.some.inj h1).symm
    rw [← this]; exact expired_iff.1 he
  · intro hle j hjm hr
    show j.id ∈ ids
    rw [← hids, List.take_of_length_le (by rw [(hpick _).length_eq, List.length_map]; exact hle)]
    exact (hpick _).mem_iff.2 (List.mem_map.2 ⟨j, List.mem_filter.2 ⟨hjm, expired_iff.2 hr⟩, rfl⟩)
  · unfold deleteJobs
    by_cases h : ids = []
    · rw [if_pos h]; simp
    · rw [if_neg h]
      have := countRemoved ids db.jobs hj
      have h2 : ids.length ≤ 1000 := by rw [← hids]; simp; omega
      exact Nat.le_trans this h2
  · unfold deleteJobs
    by_cases h : ids = []
    · rw [if_pos h]; rfl
    · rw [if_neg h]
      exact filter_split db.jobs fun j => ids.contains j.id

/-- Expired log parts: only parts older than the log retention are removed, at most 1000, and nothing else. -/
theorem C21_expunge_logs (pick : List Nat → List Nat) (hpick : ∀ l, (pick l).Perm l) (cutoff : Nat) (db : Rel)
    (hk : (db.logs.map (·.id)).Nodup) :
    let r := expungeExpiredLogs pick cutoff db
    r.1 = { db with logs := r.1.logs } ∧ r.1.logs.Sublist db.logs ∧
      (∀ l ∈ db.logs, l ∉ r.1.logs → ∃ c, l.createdAt = some c ∧ c < cutoff) ∧
      r.1.logs.length + r.2 = db.logs.length := by
  refine ⟨rfl, List.filter_sublist, ?_, ?_⟩
  · intro l hl hn
    simp only [expungeExpiredLogs, List.mem_filter, not_and, Bool.not_eq_true', Bool.not_eq_false] at hn
    have := hn hl
    rw [List.contains_iff_mem] at this
    have := (hpick _).mem_iff.1 (List.mem_of_mem_take this)
    obtain ⟨l', hl', he⟩ := List.mem_map.1 this
    have hm := List.mem_filter.1 hl'
    have : l' = l := by
      have h1 := find?_of_nodup TaskLogPart.id hk hm.1
      have h2 := find?_of_nodup TaskLogPart.id hk hl
      rw [he, h2] at h1
      exact (Option.some.inj h1).symm
    subst this
    have h3 := hm.2
    cases hc : l'.createdAt with
    | none => simp [hc] at h3
    | some c => exact ⟨c, rfl, by simpa [hc] using h3⟩
  · exact filter_split db.logs _

/-- Deleting a schedule removes its instances with everything that belongs to them, its permissions and itself;
foreign keys stay intact and nothing else changes. -/
theorem C21_delete_schedule (id : Nat) (db : Rel) (hi : db.Integrity) :
    Without db (fun k => ∃ j ∈ db.jobs, j.id = k ∧ ∃ s, j.schedule = some s ∧ s.id = id) (deleteScheduledJob id db) ∧
    (∀ s, s ∈ (deleteScheduledJob id db).sched ↔ s ∈ db.sched ∧ s.id ≠ id) ∧
    (∀ p, p ∈ (deleteScheduledJob id db).schedPerms ↔ p ∈ db.schedPerms ∧ p.jobID ≠ id) ∧
    (deleteScheduledJob id db).Integrity := by
  have hw := deleteJobs_without ((db.jobs.filter (instanceOf id)).map (·.id)) db
  have hg : ∀ k, k ∈ (db.jobs.filter (instanceOf id)).map (·.id) ↔
      ∃ j ∈ db.jobs, j.id = k ∧ ∃ s, j.schedule = some s ∧ s.id = id := by
    intro k
    simp only [List.mem_map, List.mem_filter]
    constructor
    · rintro ⟨j, ⟨h1, h2⟩, h3⟩
      refine ⟨j, h1, h3, ?_⟩
      unfold instanceOf at h2
      split at h2
      · rename_i s hs; exact ⟨s, hs, by simpa using h2⟩
      · cases h2
    · rintro ⟨j, h1, h3, s, hs, he⟩
      exact ⟨j, ⟨h1, by unfold instanceOf; rw [hs]; simpa using he⟩, h3⟩
  have hW : Without db (fun k => ∃ j ∈ db.jobs, j.id = k ∧ ∃ s, j.schedule = some s ∧ s.id = id)
      (deleteScheduledJob id db) := by
    have : (fun k => ∃ j ∈ db.jobs, j.id = k ∧ ∃ s, j.schedule = some s ∧ s.id = id) =
        (· ∈ (db.jobs.filter (instanceOf id)).map (·.id)) := by funext k; exact propext (hg k).symm
    rw [this]
    exact ⟨hw.1.jobs, hw.1.tasks, hw.1.logs, hw.1.perms, hw.1.order, hw.1.rest⟩
  have hS : ∀ s, s ∈ (deleteScheduledJob id db).sched ↔ s ∈ db.sched ∧ s.id ≠ id := by
    intro s; simp only [deleteScheduledJob, hw.2.1, List.mem_filter, ne_eq, decide_not, Bool.not_eq_true',
      decide_eq_false_iff_not]
  have hP : ∀ p, p ∈ (deleteScheduledJob id db).schedPerms ↔ p ∈ db.schedPerms ∧ p.jobID ≠ id := by
    intro s; simp only [deleteScheduledJob, hw.2.2, List.mem_filter, ne_eq, decide_not, Bool.not_eq_true',
      decide_eq_false_iff_not]
  refine ⟨hW, hS, hP, ?_⟩
  have hint := integrity_without hw.1 hi hw.2.1 hw.2.2
  refine ⟨hint.tasks, hint.logs, hint.perms, ?_, ?_⟩
  · intro j hjm s hjs
    obtain ⟨h1, h2⟩ := (hW.jobs j).1 hjm
    obtain ⟨x, hx, he⟩ := hi.sched j h1 s hjs
    exact ⟨x, (hS x).2 ⟨hx, fun hc => h2 ⟨j, h1, rfl, s, hjs, by rw [← he, hc]⟩⟩, he⟩
  · intro p hp
    obtain ⟨h1, h2⟩ := (hP p).1 hp
    obtain ⟨s, hs, he⟩ := hi.schedPerms p h1
    exact ⟨s, (hS s).2 ⟨hs, by rw [he]; exact h2⟩, he⟩

/-- A case with an expired, a finished-but-recent and a running job. -/
def expEx : Rel :=
  { jobs := [{ id := 1, createdAt := 5, state := .completed }, { id := 2, createdAt := 50, state := .completed },
      { id := 3, createdAt := 5, state := .running }, { id := 4, createdAt := 50, state := .completed, deleteAt := some 60 }]
    tasks := [{ id := 10, jobID := 1 }, { id := 11, jobID := 3 }, { id := 12, jobID := 4 }]
    logs := [{ id := 20, taskID := 10 }, { id := 21, taskID := 11 }], perms := [{ id := 30, jobID := 4 }] }

example : expEx.Integrity := by
  refine ⟨?_, ?_, ?_, ?_, ?_⟩
  · simp [expEx]
  · simp [expEx]
  · simp [expEx]
  · intro j hj s hs; simp [expEx] at hj; rcases hj with rfl | rfl | rfl | rfl <;> simp at hs
  · simp [expEx]

example : ((expungeExpiredJobs (fun l => l) 100 30 expEx).1.jobs.map (·.id),
    (expungeExpiredJobs (fun l => l) 100 30 expEx).1.tasks.map (·.id),
    (expungeExpiredJobs (fun l => l) 100 30 expEx).1.logs.map (·.id),
    (expungeExpiredJobs (fun l => l) 100 30 expEx).2) = ([2, 3], [11], [21], 2) := by decide +kernel

/-! ## C54 Users -/

/-- **C54.** A creation request either is refused and changes nothing, or it adds exactly one user whose name is the
trimmed, non-empty requested name, which no existing user has (as name or as id), and whose stored password is the
hash of the trimmed, non-empty requested password; the clear password is neither stored nor shown. -/
theorem C54_create (idText : Nat → String) (hash : String → Option String) (id now : Nat) (req : User) (db : Rel) :
    (∃ e, apiCreateUser idText hash id now req db = (.error e, db)) ∨
    ∃ (h : String) (row shown : User),
      apiCreateUser idText hash id now req db = (.ok shown, { db with users := db.users ++ [row] }) ∧
      row.username = trimSpace req.username ∧ row.username ≠ "" ∧ trimSpace req.password ≠ "" ∧
      (∀ u ∈ db.users, u.username ≠ row.username ∧ idText u.id ≠ row.username ∧ u.id ≠ row.id) ∧
      hash (trimSpace req.password) = some h ∧ row.passwordHash = h ∧ row.password = "" ∧ shown.password = "" ∧
      row.id = id ∧ row.name = req.name ∧ row.createdAt = some now ∧ row.disabled = false ∧
      shown.id = row.id ∧ shown.username = row.username ∧ shown.name = row.name ∧ shown.createdAt = row.createdAt := by
  unfold apiCreateUser
  simp only
  by_cases h1 : trimSpace req.username = ""
  · left; rw [if_pos h1]; exact ⟨_, rfl⟩
  rw [if_neg h1]
  by_cases h2 : trimSpace req.password = ""
  · left; rw [if_pos h2]; exact ⟨_, rfl⟩
  rw [if_neg h2]
  cases hh : hash (trimSpace req.password) with
  | none => left; exact ⟨_, rfl⟩
  | some h =>
    simp only
    cases hg : getUser idText db (trimSpace req.username) with
    | some _ => left; exact ⟨_, rfl⟩
    | none =>
      simp only
      unfold createUser
      simp only
      by_cases hc : (db.users.any fun r => decide (r.username = trimSpace req.username) || decide (r.id = id)) = true
      · left; rw [if_pos hc]; exact ⟨_, rfl⟩
      · right
        rw [if_neg hc]
        refine ⟨h, _, _, rfl, rfl, h1, h2, ?_, rfl, rfl, rfl, rfl, rfl, rfl, rfl, rfl, rfl, rfl, rfl, rfl⟩
        intro u hu
        rw [Bool.not_eq_true, List.any_eq_false] at hc
        have := hc u hu
        simp only [Bool.or_eq_true, decide_eq_true_eq, not_or] at this
        unfold getUser at hg
        rw [List.find?_eq_none] at hg
        have hg' := hg u hu
        simp only [Bool.or_eq_true, decide_eq_true_eq, not_or] at hg'
        exact ⟨hg'.1, hg'.2, this.2⟩

/-- The clear password has no influence on the database or the response except through its hash: two requests that
differ only in the password and have the same hash have the same effect. -/
theorem C54_password_only_hashed (idText : Nat → String) (hash : String → Option String) (id now : Nat)
    (req req' : User) (db : Rel) (h0 : { req with password := "" } = { req' with password := "" })
    (h : hash (trimSpace req.password) = hash (trimSpace req'.password))
    (hp : trimSpace req.password = "" ↔ trimSpace req'.password = "") :
    apiCreateUser idText hash id now req db = apiCreateUser idText hash id now req' db := by
  obtain ⟨a1, a2, a3, a4, p1, a5, a6⟩ := req
  obtain ⟨b1, b2, b3, b4, p2, b5, b6⟩ := req'
  simp only [User.mk.injEq, true_and] at h0
  obtain ⟨rfl, rfl, rfl, rfl, rfl, rfl⟩ := h0
  unfold apiCreateUser
  simp only at h hp ⊢
  by_cases h2 : trimSpace p1 = ""
  · rw [if_pos h2, if_pos (hp.1 h2)]
  · rw [if_neg h2, if_neg (fun hc => h2 (hp.2 hc)), h]

/-- Names stay unique, also when two requests race: the insert itself refuses a taken name. And whatever the
caller passes, the row holds no clear password. -/
theorem C54_names_unique (id now : Nat) (u : User) (db db' : Rel) (hu : db.NamesUnique)
    (h : createUser id now u db = .ok db') :
    db'.NamesUnique ∧ ∃ row, db' = { db with users := db.users ++ [row] } ∧ row.id = id ∧
      row.username = u.username ∧ row.passwordHash = u.passwordHash ∧ row.password = "" := by
  unfold createUser at h
  split at h
  · cases h
  · rename_i hc
    injection h with h
    refine ⟨?_, _, h.symm, rfl, rfl, rfl, rfl⟩
    subst h
    unfold Rel.NamesUnique at hu ⊢
    simp only [List.map_append, List.map_cons, List.map_nil]
    rw [List.nodup_append]
    refine ⟨hu, by simp, ?_⟩
    intro a ha b hb
    simp only [List.mem_singleton] at hb
    subst hb
    obtain ⟨r, hr, rfl⟩ := List.mem_map.1 ha
    rw [Bool.not_eq_true, List.any_eq_false] at hc
    have := hc r hr
    simp only [Bool.or_eq_true, decide_eq_true_eq, not_or] at this
    exact this.1

example : (apiCreateUser toString (fun p => some ("hash:" ++ p)) 3 9 { username := " ann ", password := "pw" }
    { users := [{ id := 1, username := "guest" }] }).2.users.map (fun u => (u.id, u.username, u.passwordHash, u.password)) =
    [(1, "guest", "", ""), (3, "ann", "hash:pw", "")] := by decide +kernel

end Tork
