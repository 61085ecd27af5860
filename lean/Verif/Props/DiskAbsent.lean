import Verif.Props.Disk
import Verif.Props.DiskWrong
/-!
# C124: paths without a file
-/
namespace Thinc
variable {V A S B Sh H : Type}
open Wrapped (Bytes Codec)

/-- C124 (no file).  If the path leads to no file, because there is nothing or because it is a directory, then `from_disk` raises and leaves the model
as it is, and `can_from_disk` says False. -/
theorem C124_no_file [DecidableEq B] [DecidableEq Sh] (ops : SerOps V A S B Sh) (io : ArrayIO V H) (msgpack : Codec (Msg H B))
    (s : LoadState V A S) (self : Addr) (d : Disk) (path : Nat) (h : ∀ data, d.get? path ≠ some (.file data)) :
    (∃ e, modelFromDisk ops io msgpack s self d path = (s, .error e)) ∧
    ∀ strict, canFromDisk ops io msgpack s self d path strict = .ok false := by
  rcases hp : d.get? path with _ | _ | _
  · refine ⟨⟨.userError 2, ?_⟩, fun strict => ?_⟩
    · simp [modelFromDisk, readFile, hp]
    · simp [canFromDisk, hp]
  · exact absurd hp (h _)
  · refine ⟨⟨.userError 21, ?_⟩, fun strict => ?_⟩
    · simp [modelFromDisk, readFile, hp]
    · simp [canFromDisk, hp]

/-- C124 (what a return means).  If `to_disk` returns, then `to_bytes` gives bytes, the path led to no directory and these bytes are in the file
now.  If the path leads to a directory, `to_disk` raises and no file is changed. -/
theorem C124_returned (ops : SerOps V A S B Sh) (io : ArrayIO V H) (msgpack : Codec (Msg H B)) (hm : Spec.CutDetecting msgpack)
    (hio : Spec.SameArrays io) [DecidableEq B] [DecidableEq Sh] (s : LoadState V A S) (self : Addr) (d : Disk) (path : Nat) :
    ((modelToDisk ops io msgpack s self d path).2 = .ok () → ∃ data, modelToBytes ops io msgpack s self = .ok data ∧
      (modelToDisk ops io msgpack s self d path).1.get? path = some (.file data)) ∧
    (d.get? path = some .dir → (∃ e, (modelToDisk ops io msgpack s self d path).2 = .error e) ∧
      (modelToDisk ops io msgpack s self d path).1 = d) := by
  constructor
  · intro h
    by_cases hd : d.get? path = some .dir
    · simp [modelToDisk, toDiskSteps, hd] at h
    · cases hmsg : toDict ops s self with
      | error e =>
        simp only [modelToDisk, steps_of_error ops io msgpack hmsg hd] at h
        cases h
      | ok msg =>
        obtain ⟨data, h1, -, h2⟩ := (C124_saved ops io msgpack hm hio s self d path msg hmsg hd).1
        exact ⟨data, h1, h2⟩
  · intro h
    refine ⟨⟨.userError 21, ?_⟩, ?_⟩ <;> simp [modelToDisk, toDiskSteps, h, runOps]

/-! ### The hypotheses can be met -/

example (t : LoadState Int Int Int) : ∃ e, modelFromDisk exOps exIO exPack t 0 [(3, .dir), (4, .file [])] 3 = (t, .error e) :=
  (C124_no_file exOps exIO exPack t 0 [(3, .dir), (4, .file [])] 3 (by
    intro data h
    cases h)).1

example : (modelToDisk exOps exIO exPack (exNamed "a") 0 [(3, .dir)] 7).2 = .ok () ∧
    ∃ data, (modelToDisk exOps exIO exPack (exNamed "a") 0 [(3, .dir)] 7).1.get? 7 = some (.file data) := by
  have h := (C124_saved exOps exIO exPack exPack_ok exIO_ok (exNamed "a") 0 [(3, .dir)] 7 _ (exNamed_toDict "a") (by decide)).2.1
  obtain ⟨data, -, h2⟩ := (C124_returned exOps exIO exPack exPack_ok exIO_ok (exNamed "a") 0 [(3, .dir)] 7).1 h
  exact ⟨h, data, h2⟩

end Thinc
