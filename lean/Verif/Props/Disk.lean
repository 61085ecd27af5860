import Verif.Lemmas.Disk
import Verif.Props.CanLoad
import Mathlib.Data.List.Nodup
/-!
# C124: saving models to files, with crashes and threads at any point
-/
namespace Thinc
open Spec
open Wrapped (Bytes Codec)
variable {V A S B Sh H : Type}

/-- Reading a file that holds a whole message. -/
theorem load_whole [DecidableEq B] [DecidableEq Sh] (ops : SerOps V A S B Sh) {io : ArrayIO V H} {msgpack : Codec (Msg H B)}
    (hm : CutDetecting msgpack) (hio : SameArrays io) {d : Disk} {path : Nat} {msg : Msg V B}
    (h : d.get? path = some (.file (msgpack.dumps (msg.mapArrays io.toNumpyLe)))) (t : LoadState V A S) (root : Addr) :
    modelFromDisk ops io msgpack t root d path = fromDict ops t root msg ∧
      ∀ strict, canFromDisk ops io msgpack t root d path strict = canFromDict ops t root msg strict := by
  constructor
  · simp only [modelFromDisk, readFile, h, modelFromBytes, hm.same, mapArrays_id msg io hio]
  · intro strict
    simp only [canFromDisk, h, canFromBytes, hm.same, mapArrays_id msg io hio]

/-- Reading a file that the reader of messages refuses. -/
theorem load_cut [DecidableEq B] [DecidableEq Sh] (ops : SerOps V A S B Sh) (io : ArrayIO V H) {msgpack : Codec (Msg H B)}
    {d : Disk} {path : Nat} {data : Bytes} (h : d.get? path = some (.file data)) (hd : msgpack.loads data = .error .valueError)
    (t : LoadState V A S) (root : Addr) :
    modelFromDisk ops io msgpack t root d path = (t, .error .valueError) ∧
      ∀ strict, canFromDisk ops io msgpack t root d path strict = .ok false := by
  constructor
  · simp only [modelFromDisk, readFile, h, modelFromBytes, hd]
  · intro strict
    simp only [canFromDisk, h, canFromBytes, hd]

theorem steps_of_ok (ops : SerOps V A S B Sh) (io : ArrayIO V H) (msgpack : Codec (Msg H B)) {s : LoadState V A S} {self : Addr} {d : Disk}
    {path : Nat} {msg : Msg V B} (hmsg : toDict ops s self = .ok msg) (hdir : d.get? path ≠ some .dir) :
    toDiskSteps ops io msgpack s self d path = (.create path :: writeSteps path 0 (msgpack.dumps (msg.mapArrays io.toNumpyLe)), .ok ()) := by
  unfold toDiskSteps
  split
  · rename_i h; exact absurd h hdir
  · simp only [modelToBytes, hmsg]

theorem steps_of_error (ops : SerOps V A S B Sh) (io : ArrayIO V H) (msgpack : Codec (Msg H B)) {s : LoadState V A S} {self : Addr} {d : Disk}
    {path : Nat} {e : PyErr} (hmsg : toDict ops s self = .error e) (hdir : d.get? path ≠ some .dir) :
    toDiskSteps ops io msgpack s self d path = ([.create path], .error e) := by
  unfold toDiskSteps
  split
  · rename_i h; exact absurd h hdir
  · simp only [modelToBytes, hmsg]

theorem steps_path (ops : SerOps V A S B Sh) (io : ArrayIO V H) (msgpack : Codec (Msg H B)) (s : LoadState V A S) (self : Addr) (d : Disk)
    (path : Nat) : ∀ op ∈ (toDiskSteps ops io msgpack s self d path).1, op.path = path := by
  intro op hop
  unfold toDiskSteps at hop
  split at hop
  · cases hop
  · split at hop
    · rcases List.mem_cons.1 hop with rfl | h
      · rfl
      · cases h
    · exact save_path hop

/-- The steps of a save depend on the disk only through the question whether the path is a directory. -/
theorem steps_congr (ops : SerOps V A S B Sh) (io : ArrayIO V H) (msgpack : Codec (Msg H B)) (s : LoadState V A S) (self : Addr) {d d' : Disk}
    {path : Nat} (h : d.get? path ≠ some .dir) (h' : d'.get? path ≠ some .dir) :
    toDiskSteps ops io msgpack s self d path = toDiskSteps ops io msgpack s self d' path := by
  cases hm : toDict ops s self with
  | error e => rw [steps_of_error ops io msgpack hm h, steps_of_error ops io msgpack hm h']
  | ok msg => rw [steps_of_ok ops io msgpack hm h, steps_of_ok ops io msgpack hm h']

/-- C124 (a save that is not disturbed).  `to_disk` succeeds whenever `to_dict` does; afterwards `from_disk` does to any model what
`from_dict` with the dict of the saved model does, `can_from_disk` answers what `can_from_dict` answers, and no other file has changed.  The
same holds of `to_bytes` and `from_bytes`. -/
theorem C124_saved [DecidableEq B] [DecidableEq Sh] (ops : SerOps V A S B Sh) (io : ArrayIO V H) (msgpack : Codec (Msg H B))
    (hm : CutDetecting msgpack) (hio : SameArrays io) (s : LoadState V A S) (self : Addr) (d : Disk) (path : Nat) (msg : Msg V B)
    (hmsg : toDict ops s self = .ok msg) (hdir : d.get? path ≠ some .dir) :
    (∃ data, modelToBytes ops io msgpack s self = .ok data ∧
      (∀ (t : LoadState V A S) (root : Addr), modelFromBytes ops io msgpack t root data = fromDict ops t root msg ∧
        ∀ strict, canFromBytes ops io msgpack t root data strict = canFromDict ops t root msg strict) ∧
      (modelToDisk ops io msgpack s self d path).1.get? path = some (.file data)) ∧
    (modelToDisk ops io msgpack s self d path).2 = .ok () ∧
    (∀ (t : LoadState V A S) (root : Addr),
      modelFromDisk ops io msgpack t root (modelToDisk ops io msgpack s self d path).1 path = fromDict ops t root msg ∧
      ∀ strict, canFromDisk ops io msgpack t root (modelToDisk ops io msgpack s self d path).1 path strict =
        canFromDict ops t root msg strict) ∧
    ∀ p, p ≠ path → (modelToDisk ops io msgpack s self d path).1.get? p = d.get? p := by
  have hst := steps_of_ok ops io msgpack hmsg hdir
  have hfile : (modelToDisk ops io msgpack s self d path).1.get? path = some (.file (msgpack.dumps (msg.mapArrays io.toNumpyLe))) := by
    simp only [modelToDisk, hst]
    rw [runOps_get, filter_own _ _ (fun op h => save_path h)]
    have := entryRun_save path (msgpack.dumps (msg.mapArrays io.toNumpyLe)) (d.get? path) hdir
      (msgpack.dumps (msg.mapArrays io.toNumpyLe)).length
    rw [List.take_length, List.take_of_length_le (by simp [writeSteps_length])] at this
    exact this
  refine ⟨⟨_, by simp only [modelToBytes, hmsg], fun t root => ?_, hfile⟩, by simp only [modelToDisk, hst], fun t root => load_whole ops hm hio hfile t root, fun p hp => ?_⟩
  · constructor
    · simp only [modelFromBytes, hm.same, mapArrays_id msg io hio]
    · intro strict
      simp only [canFromBytes, hm.same, mapArrays_id msg io hio]
  · simp only [modelToDisk, hst]
    exact runOps_other _ _ _ (fun op h => by rw [save_path h]; exact fun e => hp e.symm)

/-- C124 (a crash at any point of a save).  If the process is killed after any number of steps of `to_disk`: before the first step nothing
has changed; before the last one `from_disk` raises ValueError and leaves the model that should have been loaded as it was, and
`can_from_disk` returns False; after the last one the save is as if there had been no crash.  Other files never change. -/
theorem C124_crash [DecidableEq B] [DecidableEq Sh] (ops : SerOps V A S B Sh) (io : ArrayIO V H) (msgpack : Codec (Msg H B))
    (hm : CutDetecting msgpack) (hio : SameArrays io) (s : LoadState V A S) (self : Addr) (d : Disk) (path : Nat) (msg : Msg V B)
    (hmsg : toDict ops s self = .ok msg) (hdir : d.get? path ≠ some .dir) (k : Nat) :
    let steps := (toDiskSteps ops io msgpack s self d path).1
    let d' := runOps d (steps.take k)
    (k = 0 → d' = d) ∧
    (0 < k → k < steps.length → ∀ (t : LoadState V A S) (root : Addr),
      modelFromDisk ops io msgpack t root d' path = (t, .error .valueError) ∧
      ∀ strict, canFromDisk ops io msgpack t root d' path strict = .ok false) ∧
    (steps.length ≤ k → ∀ (t : LoadState V A S) (root : Addr),
      modelFromDisk ops io msgpack t root d' path = fromDict ops t root msg ∧
      ∀ strict, canFromDisk ops io msgpack t root d' path strict = canFromDict ops t root msg strict) ∧
    ∀ p, p ≠ path → d'.get? p = d.get? p := by
  intro steps d'
  have hst : steps = .create path :: writeSteps path 0 (msgpack.dumps (msg.mapArrays io.toNumpyLe)) := by
    show (toDiskSteps ops io msgpack s self d path).1 = _
    rw [steps_of_ok ops io msgpack hmsg hdir]
  generalize hdata : msgpack.dumps (msg.mapArrays io.toNumpyLe) = data at hst
  have hlen : steps.length = data.length + 1 := by rw [hst]; simp [writeSteps_length]
  have hfile : ∀ j, k = j + 1 → d'.get? path = some (.file (data.take j)) := by
    rintro j rfl
    show (runOps d (steps.take (j + 1))).get? path = _
    rw [runOps_get, filter_own _ _ (fun op h => by rw [hst] at h; exact save_path (List.mem_of_mem_take h)), hst]
    exact entryRun_save path data (d.get? path) hdir j
  refine ⟨?_, ?_, ?_, ?_⟩
  · rintro rfl
    show runOps d (steps.take 0) = d
    rw [List.take_zero]; rfl
  · intro h0 hk t root
    obtain ⟨j, rfl⟩ : ∃ j, k = j + 1 := ⟨k - 1, by omega⟩
    have hj : j < data.length := by omega
    refine load_cut ops io (hfile j rfl) (hm.cut (msg.mapArrays io.toNumpyLe) _ ?_ ?_) t root
    · rw [hdata]; exact List.take_prefix _ _
    · rw [hdata]
      intro he
      have := congrArg List.length he
      rw [List.length_take] at this
      omega
  · intro hk t root
    obtain ⟨j, rfl⟩ : ∃ j, k = j + 1 := ⟨k - 1, by omega⟩
    have := hfile j rfl
    rw [List.take_of_length_le (by omega), ← hdata] at this
    exact load_whole ops hm hio this t root
  · intro p hp
    refine runOps_other _ _ _ (fun op h => ?_)
    rw [hst] at h
    rw [save_path (List.mem_of_mem_take h)]
    exact fun e => hp e.symm

/-! ## Histories -/

theorem afterAttempt_other (ops : SerOps V A S B Sh) (io : ArrayIO V H) (msgpack : Codec (Msg H B)) (d : Disk) (a : Attempt V A S) (p : Nat)
    (h : a.path = p → a.cut = 0) : (afterAttempt ops io msgpack d a).get? p = d.get? p := by
  by_cases hp : a.path = p
  · unfold afterAttempt
    rw [h hp, List.take_zero]; rfl
  · refine runOps_other _ _ _ (fun op hop => ?_)
    rw [steps_path ops io msgpack _ _ _ _ op (List.mem_of_mem_take hop)]
    exact hp

theorem history_other (ops : SerOps V A S B Sh) (io : ArrayIO V H) (msgpack : Codec (Msg H B)) (hs : List (Attempt V A S)) (d : Disk) (p : Nat)
    (h : ∀ a ∈ hs, a.path = p → a.cut = 0) : (hs.foldl (afterAttempt ops io msgpack) d).get? p = d.get? p := by
  induction hs generalizing d with
  | nil => rfl
  | cons a hs ih =>
    rw [List.foldl_cons, ih _ (fun b hb => h b (List.mem_cons_of_mem _ hb))]
    exact afterAttempt_other ops io msgpack d a p (h a (by simp))

theorem runOps_dir (l : List DiskOp) (d : Disk) (p : Nat) : (runOps d l).get? p = some .dir → d.get? p = some .dir := by
  rw [runOps_get]
  generalize l.filter (fun op => op.path = p) = l
  generalize d.get? p = e
  induction l generalizing e with
  | nil => exact id
  | cons op l ih =>
    intro h
    rw [List.foldl_cons] at h
    have := ih _ h
    cases op with
    | create q =>
      simp only [entryRun] at this
      split at this
      · exact this
      · cases this
    | write q o b =>
      simp only [entryRun] at this
      split at this
      · cases this
      · exact this

theorem history_dir (ops : SerOps V A S B Sh) (io : ArrayIO V H) (msgpack : Codec (Msg H B)) (hs : List (Attempt V A S)) (d : Disk) (p : Nat) :
    (hs.foldl (afterAttempt ops io msgpack) d).get? p = some .dir → d.get? p = some .dir := by
  induction hs generalizing d with
  | nil => exact id
  | cons a hs ih => exact fun h => runOps_dir _ _ _ (ih _ h)

/-- C124 (any history of saves).  Models are saved to any paths, any number of times, and each save may raise or be cut short by a crash at
any point.  If no save has touched a path, its file is what it was.  Otherwise let `a` be the last save that touched it: if `a` was not cut short and its model
could be serialized, then `from_disk` loads exactly the dict of that model; if not, `from_disk` raises ValueError, changes nothing, and
`can_from_disk` returns False.  So a load never sees an older model nor parts of two models.
Missing from the full claim: that after a crash or an exception the model that was saved before can still be loaded; `C124_crash_wrong` and
`C124_failed_save_wrong` (Props/DiskWrong.lean) show that it cannot. -/
theorem C124_history_partial [DecidableEq B] [DecidableEq Sh] (ops : SerOps V A S B Sh) (io : ArrayIO V H) (msgpack : Codec (Msg H B))
    (hm : CutDetecting msgpack) (hio : SameArrays io) (d : Disk) (path : Nat) (hdir : d.get? path ≠ some .dir) :
    (∀ hs : List (Attempt V A S), (∀ a ∈ hs, a.path = path → a.cut = 0) →
      (hs.foldl (afterAttempt ops io msgpack) d).get? path = d.get? path) ∧
    ∀ (before after : List (Attempt V A S)) (a : Attempt V A S), a.path = path → 0 < a.cut →
      (∀ b ∈ after, b.path = path → b.cut = 0) → ∀ (t : LoadState V A S) (root : Addr),
      (∀ msg data, toDict ops a.model a.root = .ok msg → modelToBytes ops io msgpack a.model a.root = .ok data → data.length < a.cut →
        modelFromDisk ops io msgpack t root ((before ++ a :: after).foldl (afterAttempt ops io msgpack) d) path = fromDict ops t root msg ∧
        ∀ strict, canFromDisk ops io msgpack t root ((before ++ a :: after).foldl (afterAttempt ops io msgpack) d) path strict =
          canFromDict ops t root msg strict) ∧
      ((∀ data, modelToBytes ops io msgpack a.model a.root = .ok data → a.cut ≤ data.length) →
        modelFromDisk ops io msgpack t root ((before ++ a :: after).foldl (afterAttempt ops io msgpack) d) path = (t, .error .valueError) ∧
        ∀ strict, canFromDisk ops io msgpack t root ((before ++ a :: after).foldl (afterAttempt ops io msgpack) d) path strict = .ok false) := by
  refine ⟨fun hs h => history_other ops io msgpack hs d path h, ?_⟩
  rintro before after a rfl hcut hafter t root
  generalize hd1 : before.foldl (afterAttempt ops io msgpack) d = d1
  have hdir1 : d1.get? a.path ≠ some .dir := fun h => hdir (history_dir ops io msgpack before d a.path (by rw [hd1]; exact h))
  have hfin : ((before ++ a :: after).foldl (afterAttempt ops io msgpack) d).get? a.path =
      (afterAttempt ops io msgpack d1 a).get? a.path := by
    rw [List.foldl_append, List.foldl_cons, hd1]
    exact history_other ops io msgpack after _ _ hafter
  obtain ⟨j, hj⟩ : ∃ j, a.cut = j + 1 := ⟨a.cut - 1, by omega⟩
  have hcase : ∀ msg, toDict ops a.model a.root = .ok msg →
      (afterAttempt ops io msgpack d1 a).get? a.path = some (.file ((msgpack.dumps (msg.mapArrays io.toNumpyLe)).take j)) := by
    intro msg hmsg
    unfold afterAttempt
    rw [steps_of_ok ops io msgpack hmsg hdir1, runOps_get, filter_own _ _ (fun op h => save_path (List.mem_of_mem_take h)), hj]
    exact entryRun_save a.path _ _ hdir1 j
  constructor
  · intro msg data hmsg hdata hlen
    have hdata' : msgpack.dumps (msg.mapArrays io.toNumpyLe) = data := by
      simp only [modelToBytes, hmsg] at hdata
      exact Except.ok.inj hdata
    have := hfin.trans (hcase msg hmsg)
    rw [hdata', List.take_of_length_le (by omega), ← hdata'] at this
    exact load_whole ops hm hio this t root
  · intro hbad
    cases hmsg : toDict ops a.model a.root with
    | error e =>
      have : (afterAttempt ops io msgpack d1 a).get? a.path = some (.file []) := by
        unfold afterAttempt
        rw [steps_of_error ops io msgpack hmsg hdir1, runOps_get, hj, List.take_succ_cons, List.take_nil]
        have h1 : [DiskOp.create a.path].filter (fun op => op.path = a.path) = [DiskOp.create a.path] :=
          filter_own _ _ (fun op h => by rcases List.mem_cons.1 h with rfl | h; exact rfl; cases h)
        rw [h1]
        have := entryRun_save a.path [] (d1.get? a.path) hdir1 0
        simpa [writeSteps] using this
      exact load_cut ops io (hfin.trans this) hm.empty t root
    | ok msg =>
      have hl := hbad _ (by simp only [modelToBytes, hmsg]; rfl)
      refine load_cut ops io (hfin.trans (hcase msg hmsg)) (hm.cut (msg.mapArrays io.toNumpyLe) _ (List.take_prefix _ _) ?_) t root
      intro he
      have := congrArg List.length he
      rw [List.length_take] at this
      omega

/-! ## Threads -/

theorem interleaved_own {ps : List (List DiskOp)} {l : List DiskOp} (h : Interleaved ps l) (q : Nat → Nat)
    (hq : ∀ (i : Nat) p, ps[i]? = some p → ∀ op ∈ p, op.path = q i)
    (hinj : ∀ i j, i < ps.length → j < ps.length → q i = q j → i = j) {i : Nat} {p : List DiskOp} (hp : ps[i]? = some p) :
    l.filter (fun op => op.path = q i) <+: p := by
  induction h generalizing p with
  | stop ps => exact List.nil_prefix
  | step ps j op rest l hj hl ih =>
    have hjl := (List.getElem?_eq_some_iff.1 hj).1
    have hil := (List.getElem?_eq_some_iff.1 hp).1
    have hq' : ∀ (i : Nat) p, (ps.set j rest)[i]? = some p → ∀ op ∈ p, op.path = q i := by
      intro i p hi op' hop
      rw [List.getElem?_set] at hi
      split at hi
      · rename_i e
        subst e
        cases hi
        exact hq j _ hj op' (List.mem_cons_of_mem _ hop)
      · exact hq i p hi op' hop
    have ih := fun {p} => ih (p := p) hq' (by rw [List.length_set]; exact hinj)
    by_cases hij : j = i
    · subst hij
      rw [hj] at hp
      cases hp
      have e : op.path = q j := hq j _ hj op (by simp)
      rw [List.filter_cons_of_pos (by simpa using e)]
      exact (List.prefix_cons_inj op).2 (ih (by rw [List.getElem?_set, if_pos rfl, if_pos hjl]))
    · have e : op.path = q j := hq j _ hj op (by simp)
      have hne : op.path ≠ q i := fun h => hij (hinj j i hjl hil (e.symm.trans h))
      rw [List.filter_cons_of_neg (by simpa using hne)]
      exact ih (by rw [List.getElem?_set, if_neg hij]; exact hp)

theorem interleaved_none {ps : List (List DiskOp)} {l : List DiskOp} (h : Interleaved ps l) (path : Nat)
    (hq : ∀ p ∈ ps, ∀ op ∈ p, op.path ≠ path) : ∀ op ∈ l, op.path ≠ path := by
  induction h with
  | stop ps => exact fun op h => (by cases h)
  | step ps j op rest l hj hl ih =>
    intro op' hop
    rcases List.mem_cons.1 hop with rfl | hop
    · exact hq _ (List.mem_of_getElem? hj) _ (by simp)
    · refine ih (fun p hp => ?_) op' hop
      rcases List.mem_or_eq_of_mem_set hp with hp | rfl
      · exact hq p hp
      · exact fun op'' h => hq _ (List.mem_of_getElem? hj) _ (List.mem_cons_of_mem _ h)

theorem finished_interleaved {ps : List (List DiskOp)} {l : List DiskOp} (h : Finished ps l) : Interleaved ps l := by
  induction h with
  | stop ps _ => exact .stop ps
  | step ps j op rest l hj _ ih => exact .step ps j op rest l hj ih

theorem finished_own {ps : List (List DiskOp)} {l : List DiskOp} (h : Finished ps l) (q : Nat → Nat)
    (hq : ∀ (i : Nat) p, ps[i]? = some p → ∀ op ∈ p, op.path = q i)
    (hinj : ∀ i j, i < ps.length → j < ps.length → q i = q j → i = j) {i : Nat} {p : List DiskOp} (hp : ps[i]? = some p) :
    l.filter (fun op => op.path = q i) = p := by
  induction h generalizing p with
  | stop ps he =>
    rw [he p (List.mem_of_getElem? hp)]
    rfl
  | step ps j op rest l hj hl ih =>
    have hjl := (List.getElem?_eq_some_iff.1 hj).1
    have hil := (List.getElem?_eq_some_iff.1 hp).1
    have hq' : ∀ (i : Nat) p, (ps.set j rest)[i]? = some p → ∀ op ∈ p, op.path = q i := by
      intro i p hi op' hop
      rw [List.getElem?_set] at hi
      split at hi
      · rename_i e
        subst e
        cases hi
        exact hq j _ hj op' (List.mem_cons_of_mem _ hop)
      · exact hq i p hi op' hop
    have ih := fun {p} => ih (p := p) hq' (by rw [List.length_set]; exact hinj)
    by_cases hij : j = i
    · subst hij
      rw [hj] at hp
      cases hp
      have e : op.path = q j := hq j _ hj op (by simp)
      rw [List.filter_cons_of_pos (by simpa using e)]
      exact congrArg (op :: ·) (ih (by rw [List.getElem?_set, if_pos rfl, if_pos hjl]))
    · have e : op.path = q j := hq j _ hj op (by simp)
      have hne : op.path ≠ q i := fun h => hij (hinj j i hjl hil (e.symm.trans h))
      rw [List.filter_cons_of_neg (by simpa using hne)]
      exact ih (by rw [List.getElem?_set, if_neg hij]; exact hp)

/-- C124 (threads).  Any number of threads save models to different paths at the same time, their steps interleave in any way, and at any
moment somebody looks at the disk (or all are killed).  For each thread, what there is to see at its path is what its save alone would
have left if it had been cut after some number `k` of steps (so `C124_crash` says what a load does); if all threads have come to their end,
the save is complete.  Other files do not change. -/
theorem C124_threads (ops : SerOps V A S B Sh) (io : ArrayIO V H) (msgpack : Codec (Msg H B)) (d : Disk)
    (jobs : List (LoadState V A S × Addr × Nat)) (hpaths : (jobs.map fun j => j.2.2).Nodup) (l : List DiskOp)
    (hl : Interleaved (jobs.map fun j => (toDiskSteps ops io msgpack j.1 j.2.1 d j.2.2).1) l) :
    (∀ j ∈ jobs, (∃ k, (runOps d l).get? j.2.2 = (runOps d ((toDiskSteps ops io msgpack j.1 j.2.1 d j.2.2).1.take k)).get? j.2.2) ∧
      (Finished (jobs.map fun j => (toDiskSteps ops io msgpack j.1 j.2.1 d j.2.2).1) l →
        (runOps d l).get? j.2.2 = (modelToDisk ops io msgpack j.1 j.2.1 d j.2.2).1.get? j.2.2)) ∧
    ∀ p, (∀ j ∈ jobs, j.2.2 ≠ p) → (runOps d l).get? p = d.get? p := by
  have hq : ∀ (i : Nat) p, (jobs.map fun j => (toDiskSteps ops io msgpack j.1 j.2.1 d j.2.2).1)[i]? = some p →
      ∀ op ∈ p, op.path = ((jobs[i]?).map fun j => j.2.2).getD 0 := by
    intro i p hp op hop
    rw [List.getElem?_map] at hp
    cases hj : jobs[i]? with
    | none => rw [hj] at hp; cases hp
    | some j =>
      rw [hj] at hp
      cases hp
      exact steps_path ops io msgpack _ _ _ _ op hop
  have hinj : ∀ i j, i < (jobs.map fun j => (toDiskSteps ops io msgpack j.1 j.2.1 d j.2.2).1).length →
      j < (jobs.map fun j => (toDiskSteps ops io msgpack j.1 j.2.1 d j.2.2).1).length →
      ((jobs[i]?).map fun j => j.2.2).getD 0 = ((jobs[j]?).map fun j => j.2.2).getD 0 → i = j := by
    intro i j hi hj e
    rw [List.length_map] at hi hj
    rw [List.getElem?_eq_getElem hi, List.getElem?_eq_getElem hj] at e
    refine (List.Nodup.getElem_inj_iff hpaths (hi := by rw [List.length_map]; exact hi) (hj := by rw [List.length_map]; exact hj)).1 ?_
    rw [List.getElem_map, List.getElem_map]
    exact e
  constructor
  · intro j hj
    obtain ⟨i, hi, hij⟩ := List.mem_iff_getElem.1 hj
    have hji : jobs[i]? = some j := by rw [List.getElem?_eq_getElem hi, hij]
    have hpi : (jobs.map fun j => (toDiskSteps ops io msgpack j.1 j.2.1 d j.2.2).1)[i]? =
        some (toDiskSteps ops io msgpack j.1 j.2.1 d j.2.2).1 := by rw [List.getElem?_map, hji]; rfl
    constructor
    · have := interleaved_own hl _ hq hinj hpi
      rw [hji] at this
      obtain ⟨rest, hrest⟩ := this
      refine ⟨(l.filter fun op => op.path = j.2.2).length, ?_⟩
      rw [runOps_get, runOps_get, ← hrest]
      simp only [Option.map_some, Option.getD_some, List.take_left]
      rw [List.filter_filter]
      simp only [Bool.and_self]
    · intro hf
      have := finished_own hf _ hq hinj hpi
      rw [hji] at this
      simp only [Option.map_some, Option.getD_some] at this
      unfold modelToDisk
      rw [runOps_get, runOps_get, ← this, List.filter_filter]
      simp only [Bool.and_self]
  · intro p hp
    refine runOps_other _ _ _ (interleaved_none hl p ?_)
    intro prog hprog op hop
    obtain ⟨j, hj, rfl⟩ := List.mem_map.1 hprog
    rw [steps_path ops io msgpack _ _ _ _ op hop]
    exact hp j hj

end Thinc
