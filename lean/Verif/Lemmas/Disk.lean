import Verif.Spec.Disk
import Verif.Lemmas.PyDict
import Verif.Lemmas.Serialize
import Mathlib.Tactic.Conv
namespace Thinc
open Spec
open Wrapped (Bytes Codec)
variable {V A S B Sh H : Type}

theorem run_other (d : Disk) (op : DiskOp) (p : Nat) (h : op.path ≠ p) : (op.run d).get? p = d.get? p := by
  cases op with
  | create q =>
    simp only [DiskOp.run]
    simp only [DiskOp.path] at h
    split
    · rfl
    · rw [PyDict.get?_set, if_neg h]
  | write q o b =>
    simp only [DiskOp.run]
    simp only [DiskOp.path] at h
    split
    · rw [PyDict.get?_set, if_neg h]
    · rfl

/-- What a step does to the entry of its path. -/
def entryRun (e : Option Entry) (op : DiskOp) : Option Entry :=
  match op with
  | .create _ => match e with
    | some .dir => e
    | _ => some (.file [])
  | .write _ o b => match e with
    | some (.file data) => some (.file (writeAt data o b))
    | _ => e

theorem run_own (d : Disk) (op : DiskOp) : (op.run d).get? op.path = entryRun (d.get? op.path) op := by
  cases op with
  | create q =>
    simp only [DiskOp.run, DiskOp.path, entryRun]
    cases h : d.get? q with
    | none => simp only [PyDict.get?_set, if_true]
    | some e =>
      cases e with
      | dir => exact h
      | file data => simp only [PyDict.get?_set, if_true]
  | write q o b =>
    simp only [DiskOp.run, DiskOp.path, entryRun]
    cases h : d.get? q with
    | none => exact h
    | some e =>
      cases e with
      | dir => exact h
      | file data => simp only [PyDict.get?_set, if_true]

/-- The entry of a path depends on the steps on this path only. -/
theorem runOps_get (l : List DiskOp) (d : Disk) (p : Nat) :
    (runOps d l).get? p = (l.filter fun op => op.path = p).foldl entryRun (d.get? p) := by
  induction l generalizing d with
  | nil => rfl
  | cons op l ih =>
    show (runOps (op.run d) l).get? p = _
    rw [ih]
    by_cases h : op.path = p
    · rw [List.filter_cons_of_pos (by simpa using h), List.foldl_cons]
      subst h
      rw [run_own]
    · rw [List.filter_cons_of_neg (by simpa using h), run_other d op p h]

theorem runOps_other (l : List DiskOp) (d : Disk) (p : Nat) (h : ∀ op ∈ l, op.path ≠ p) : (runOps d l).get? p = d.get? p := by
  rw [runOps_get, List.filter_eq_nil_iff.2 (fun op hop => by simpa using h op hop)]
  rfl

theorem writeSteps_path {path : Nat} {data : Bytes} {o : Nat} {op : DiskOp} (h : op ∈ writeSteps path o data) : op.path = path := by
  induction data generalizing o with
  | nil => cases h
  | cons b bs ih =>
    rcases List.mem_cons.1 h with rfl | h
    · rfl
    · exact ih h

theorem writeSteps_length (path : Nat) (data : Bytes) (o : Nat) : (writeSteps path o data).length = data.length := by
  induction data generalizing o with
  | nil => rfl
  | cons b bs ih => simp [writeSteps, ih]

theorem writeAt_end (data : Bytes) (b : BitVec 8) : writeAt data data.length b = data ++ [b] := by
  simp [writeAt]

/-- The first `k` bytes written at the end of a file. -/
theorem entryRun_writeSteps (path : Nat) (data : Bytes) (start : Bytes) (k : Nat) :
    ((writeSteps path start.length data).take k).foldl entryRun (some (.file start)) = some (.file (start ++ data.take k)) := by
  induction data generalizing start k with
  | nil => simp [writeSteps]
  | cons b bs ih =>
    cases k with
    | zero => simp
    | succ k =>
      simp only [writeSteps, List.take_succ_cons, List.foldl_cons, entryRun, writeAt_end]
      have := ih (start ++ [b]) k
      rw [List.length_append, List.length_singleton] at this
      rw [this, List.append_assoc]
      rfl

/-- After `k + 1` steps of a save, the file holds the first `k` bytes. -/
theorem entryRun_save (path : Nat) (data : Bytes) (e : Option Entry) (he : e ≠ some .dir) (k : Nat) :
    ((DiskOp.create path :: writeSteps path 0 data).take (k + 1)).foldl entryRun e = some (.file (data.take k)) := by
  rw [List.take_succ_cons, List.foldl_cons]
  have : entryRun e (.create path) = some (.file []) := by
    cases e with
    | none => rfl
    | some x =>
      cases x with
      | dir => exact absurd rfl he
      | file y => rfl
  rw [this]
  exact entryRun_writeSteps path data [] k

theorem save_path {path : Nat} {data : Bytes} {op : DiskOp} (h : op ∈ DiskOp.create path :: writeSteps path 0 data) : op.path = path := by
  rcases List.mem_cons.1 h with rfl | h
  · rfl
  · exact writeSteps_path h

theorem filter_own (l : List DiskOp) (p : Nat) (h : ∀ op ∈ l, op.path = p) : l.filter (fun op => op.path = p) = l :=
  List.filter_eq_self.2 (fun op hop => by simpa using h op hop)

theorem entryRun_dir (l : List DiskOp) : l.foldl entryRun (some .dir) = some .dir := by
  induction l with
  | nil => rfl
  | cons op l ih => cases op <;> exact ih

theorem mapArrays_id (m : Msg V B) (io : ArrayIO V H) (h : SameArrays io) :
    (m.mapArrays io.toNumpyLe).mapArrays io.asarray = m := by
  cases m with
  | mk nodes attrs params shims =>
    simp only [Msg.mapArrays, Msg.mk.injEq, List.map_map, true_and, and_true]
    conv_rhs => rw [← List.map_id params]
    refine List.map_congr_left fun d _ => ?_
    simp only [Function.comp, List.map_map, id]
    conv_rhs => rw [← List.map_id d]
    refine List.map_congr_left fun p _ => ?_
    obtain ⟨k, v⟩ := p
    cases v with
    | none => rfl
    | some v => simp only [Function.comp, Option.map_some, h v, id]

end Thinc
