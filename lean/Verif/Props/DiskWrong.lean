import Verif.Props.DiskBytes
import Mathlib.Data.Countable.Basic
import Mathlib.Logic.Equiv.List
/-!
# C124: where saving to files falls short, and instances of the theorems

A reader and writer of messages that meets `CutDetecting`: the messages are numbered, and the bytes of the `n`-th are `n` ones and a zero.
-/
namespace Thinc
open Spec
open Wrapped (Bytes Codec)
variable {V A S B Sh H : Type}

/-- The bytes of the message with number `n`. -/
def onesBytes (n : Nat) : Bytes := List.replicate n 1 ++ [0]

theorem onesBytes_get_lt {n i : Nat} (h : i < n) : (onesBytes n)[i]? = some 1 := by
  unfold onesBytes
  rw [List.getElem?_append_left (by simpa using h), List.getElem?_replicate, if_pos h]

theorem onesBytes_get_end (n : Nat) : (onesBytes n)[n]? = some 0 := by
  unfold onesBytes
  rw [List.getElem?_append_right (by simp)]
  simp

theorem onesBytes_length (n : Nat) : (onesBytes n).length = n + 1 := by simp [onesBytes]

theorem onesBytes_inj {n m : Nat} (h : onesBytes n = onesBytes m) : n = m := by
  have := congrArg List.length h
  rw [onesBytes_length, onesBytes_length] at this
  omega

open Classical in
/-- The reader and writer. -/
noncomputable def onesCodec {α : Type} (f : α → Nat) : Codec α where
  dumps m := onesBytes (f m)
  loads b := if h : ∃ m, onesBytes (f m) = b then .ok h.choose else .error .valueError

theorem onesCodec_refuses {α : Type} {f : α → Nat} {b : Bytes} (h : ∀ m, onesBytes (f m) ≠ b) : (onesCodec f).loads b = .error .valueError := by
  unfold onesCodec
  exact dif_neg (by rintro ⟨m, hm⟩; exact h m hm)

theorem onesCodec_cutDetecting {α : Type} {f : α → Nat} (hf : Function.Injective f) : CutDetecting (onesCodec f) where
  same m := by
    have h : ∃ m', onesBytes (f m') = onesBytes (f m) := ⟨m, rfl⟩
    unfold onesCodec
    exact (dif_pos h).trans (congrArg _ (hf (onesBytes_inj h.choose_spec)))
  cut m p hp hne := by
    refine onesCodec_refuses fun m' hm' => hne ?_
    obtain ⟨r, hr⟩ := hp
    have hr : onesBytes (f m') ++ r = onesBytes (f m) := by rw [hm']; exact hr
    have hlen := congrArg List.length hr
    rw [List.length_append, onesBytes_length, onesBytes_length] at hlen
    have e : f m' = f m := by
      by_contra hfm
      have h1 := onesBytes_get_lt (show f m' < f m by omega)
      rw [← hr, List.getElem?_append_left (by rw [onesBytes_length]; omega), onesBytes_get_end] at h1
      cases h1
    rw [← hm', e]
    rfl
  empty := onesCodec_refuses fun m h => by
    have := congrArg List.length h
    rw [onesBytes_length] at this
    cases this

instance : Countable Char := Function.Injective.countable (f := Char.toNat) fun _ _ h => Char.toNat_inj.1 h

instance : Countable String := Function.Injective.countable (f := String.toList) fun _ _ h => String.toList_inj.1 h

instance : Countable NodeInfo :=
  Function.Injective.countable (f := fun i : NodeInfo => (i.name, (i.dims : List _), (i.refs : List _))) fun i j h => by
    cases i; cases j; simp only [Prod.mk.injEq] at h; obtain ⟨rfl, rfl, rfl⟩ := h; rfl

instance : Countable (Msg Int Int) :=
  Function.Injective.countable (f := fun m : Msg Int Int => (m.nodes, (m.attrs : List (List _)), (m.params : List (List _)), m.shims)) fun i j h => by
    cases i; cases j; simp only [Prod.mk.injEq] at h; obtain ⟨rfl, rfl, rfl, rfl⟩ := h; rfl

/-- A numbering of the messages. -/
noncomputable def msgNumber : Msg Int Int → Nat := (exists_injective_nat (Msg Int Int)).choose

theorem msgNumber_inj : Function.Injective msgNumber := (exists_injective_nat (Msg Int Int)).choose_spec

/-- The reader and writer of the examples. -/
noncomputable def exPack : Codec (Msg Int Int) := onesCodec msgNumber

theorem exPack_ok : CutDetecting exPack := onesCodec_cutDetecting msgNumber_inj

/-- Arrays are integers that are kept as they are. -/
def exIO : ArrayIO Int Int := ⟨id, id⟩

theorem exIO_ok : SameArrays exIO := fun _ => rfl

/-- A model of one node with the given name. -/
def exNamed (name : String) : LoadState Int Int Int := { nodes := [{ name := name, id := 1, layers := [] }], shims := [] }

/-- Its message. -/
def exNamedMsg (name : String) : Msg Int Int := ⟨some [⟨name, [], []⟩], [[]], [[]], [[]]⟩

theorem exNamed_toDict (name : String) : toDict exOps (exNamed name) 0 = .ok (exNamedMsg name) := by
  simp [exNamed, exNamedMsg, toDict, walkBfs, bfsLoop, layersOf, nodeToI, mapE, nodeInfo, refsToDict, Node.refNames, Node.dimNames,
    PyDict.keys, nodeAttrs, attrsToDict, nodeShims, nodeParams, paramsToDict, Node.paramNames, bind, Except.bind, pure, Except.pure]

/-- A model that refers to a node outside of its tree. -/
def exDangling : LoadState Int Int Int :=
  { nodes := [{ name := "a", id := 1, layers := [], refs := [("r", some 1)] }, { name := "b", id := 2, layers := [] }], shims := [] }

theorem exDangling_toDict : toDict exOps exDangling 0 = .error .valueError := by
  simp [exDangling, toDict, walkBfs, bfsLoop, layersOf, nodeToI, mapE, nodeInfo, refsToDict, Node.refNames,
    PyDict.keys, PyDict.get?, PyDict.set, Node.hasRef, Node.getRef, bind, Except.bind]

/-- The hypotheses of `C124_saved` and `C124_crash` hold of this model; the crash leaves a file that no model can load. -/
example (k : Nat) (hk : 0 < k) (hk' : k < (toDiskSteps exOps exIO exPack (exNamed "a") 0 [] 7).1.length) (t : LoadState Int Int Int) :
    modelFromDisk exOps exIO exPack t 0 (runOps [] ((toDiskSteps exOps exIO exPack (exNamed "a") 0 [] 7).1.take k)) 7 = (t, .error .valueError) :=
  ((C124_crash exOps exIO exPack exPack_ok exIO_ok (exNamed "a") 0 [] 7 _ (exNamed_toDict "a") (by decide) k).2.1 hk hk' t 0).1

example (t : LoadState Int Int Int) :
    modelFromDisk exOps exIO exPack t 0 (modelToDisk exOps exIO exPack (exNamed "a") 0 [(3, .dir)] 7).1 7 = fromDict exOps t 0 (exNamedMsg "a") :=
  ((C124_saved exOps exIO exPack exPack_ok exIO_ok (exNamed "a") 0 [(3, .dir)] 7 _ (exNamed_toDict "a") (by decide)).2.2.1 t 0).1

/-- C124 fails: a crash in the middle of a save takes the model that was saved before with it.  A model is saved completely; the save of
another one to the same path is cut after its first step; now no model at all can be loaded from the path. -/
theorem C124_crash_wrong : ∃ d : Disk, (∀ t, modelFromDisk exOps exIO exPack t 0 d 7 = fromDict exOps t 0 (exNamedMsg "a")) ∧
    ∀ t, modelFromDisk exOps exIO exPack t 0 (runOps d ((toDiskSteps exOps exIO exPack (exNamed "b") 0 d 7).1.take 1)) 7 =
      (t, .error .valueError) := by
  have h := C124_saved exOps exIO exPack exPack_ok exIO_ok (exNamed "a") 0 [] 7 _ (exNamed_toDict "a") (by decide)
  have hdir : (modelToDisk exOps exIO exPack (exNamed "a") 0 [] 7).1.get? 7 ≠ some .dir := by
    obtain ⟨⟨data, _, _, hd⟩, _⟩ := h
    rw [hd]
    exact fun e => by cases e
  refine ⟨_, fun t => (h.2.2.1 t 0).1, fun t => ?_⟩
  refine ((C124_crash exOps exIO exPack exPack_ok exIO_ok (exNamed "b") 0 _ 7 _ (exNamed_toDict "b") hdir 1).2.1 (by decide) ?_ t 0).1
  rw [steps_of_ok exOps exIO exPack (exNamed_toDict "b") hdir]
  simp only [List.length_cons, writeSteps_length]
  have : (exPack.dumps ((exNamedMsg "b").mapArrays exIO.toNumpyLe)).length = msgNumber ((exNamedMsg "b").mapArrays exIO.toNumpyLe) + 1 :=
    onesBytes_length _
  omega

/-- C124 fails: the same without a crash.  `to_disk` empties the file before it serializes the model; if the model cannot be serialized,
here because it refers to a node outside of its tree, ValueError is raised and the model that the file held before is gone. -/
theorem C124_failed_save_wrong : ∃ d : Disk, (∀ t, modelFromDisk exOps exIO exPack t 0 d 7 = fromDict exOps t 0 (exNamedMsg "a")) ∧
    (modelToDisk exOps exIO exPack exDangling 0 d 7).2 = .error .valueError ∧
    ∀ t, modelFromDisk exOps exIO exPack t 0 (modelToDisk exOps exIO exPack exDangling 0 d 7).1 7 = (t, .error .valueError) := by
  have h := C124_saved exOps exIO exPack exPack_ok exIO_ok (exNamed "a") 0 [] 7 _ (exNamed_toDict "a") (by decide)
  have hdir : (modelToDisk exOps exIO exPack (exNamed "a") 0 [] 7).1.get? 7 ≠ some .dir := by
    obtain ⟨⟨data, _, _, hd⟩, _⟩ := h
    rw [hd]
    exact fun e => by cases e
  refine ⟨_, fun t => (h.2.2.1 t 0).1, by rw [modelToDisk, steps_of_error exOps exIO exPack exDangling_toDict hdir], fun t => ?_⟩
  have := ((C124_history_partial exOps exIO exPack exPack_ok exIO_ok (modelToDisk exOps exIO exPack (exNamed "a") 0 [] 7).1 7 hdir).2 [] []
    ⟨exDangling, 0, 7, 1⟩ rfl (by decide) (fun b hb => (by cases hb)) t 0).2
    (fun data hd => by simp only [modelToBytes, exDangling_toDict] at hd; cases hd)
  have e : afterAttempt exOps exIO exPack (modelToDisk exOps exIO exPack (exNamed "a") 0 [] 7).1 ⟨exDangling, 0, 7, 1⟩ =
      (modelToDisk exOps exIO exPack exDangling 0 (modelToDisk exOps exIO exPack (exNamed "a") 0 [] 7).1 7).1 := by
    rw [modelToDisk.eq_1 exOps exIO exPack exDangling, afterAttempt]
    rw [steps_of_error exOps exIO exPack exDangling_toDict hdir]
    rfl
  rw [← e]
  exact this.1

/-- Bytes written over the beginning of a file that is at least as long. -/
theorem entryRun_over (path : Nat) (data : Bytes) : ∀ (old : Bytes) (o : Nat), o + data.length ≤ old.length →
    (writeSteps path o data).foldl entryRun (some (.file old)) = some (.file (old.take o ++ data ++ old.drop (o + data.length))) := by
  induction data with
  | nil => intro old o _; simp [writeSteps]
  | cons b bs ih =>
    intro old o h
    rw [List.length_cons] at h
    simp only [writeSteps, List.foldl_cons, entryRun]
    have hw : writeAt old o b = old.set o b := by unfold writeAt; rw [if_pos (by omega)]
    rw [hw, ih (old.set o b) (o + 1) (by rw [List.length_set]; omega)]
    congr 2
    have e1 : (old.set o b).take (o + 1) = old.take o ++ [b] := by
      rw [List.take_set, List.take_succ_eq_append_getElem (by omega)]
      rw [List.set_append_right _ _ (by simp)]
      simp [Nat.min_eq_left (show o ≤ old.length by omega)]
    have e2 : (old.set o b).drop (o + 1 + bs.length) = old.drop (o + (bs.length + 1)) := by
      rw [List.drop_set_of_lt (by omega)]
      congr 1
      omega
    rw [e1, e2, List.length_cons]
    simp

theorem finished_one_after_other (p q : List DiskOp) (x y : DiskOp) : Finished [x :: p, y :: q] (x :: y :: (q ++ p)) := by
  have h1 : ∀ p, Finished [p, []] p := by
    intro p
    induction p with
    | nil => exact .stop _ (by simp)
    | cons o p ih => exact .step _ 0 o p p rfl ih
  have h2 : ∀ q p, Finished [p, q] (q ++ p) := by
    intro q p
    induction q with
    | nil => exact h1 p
    | cons o q ih => exact .step _ 1 o q (q ++ p) rfl ih
  exact .step _ 0 x p _ rfl (.step _ 1 y q _ rfl (h2 q p))

theorem mapArrays_self (m : Msg Int Int) : m.mapArrays id = m := by
  cases m
  simp [Msg.mapArrays]

theorem two_writers {m m' : Nat} (h : m < m') (x y : LoadState Int Int Int) (mx my : Msg Int Int) (hx : toDict exOps x 0 = .ok mx)
    (hy : toDict exOps y 0 = .ok my) (em : msgNumber mx = m) (em' : msgNumber my = m') :
    ∃ l, Finished [(toDiskSteps exOps exIO exPack x 0 [] 7).1, (toDiskSteps exOps exIO exPack y 0 [] 7).1] l ∧
      ∀ t, modelFromDisk exOps exIO exPack t 0 (runOps [] l) 7 = (t, .error .valueError) := by
  have ex : exPack.dumps (mx.mapArrays exIO.toNumpyLe) = onesBytes m := by
    rw [← em]
    show onesBytes (msgNumber (mx.mapArrays id)) = _
    rw [mapArrays_self]
  have ey : exPack.dumps (my.mapArrays exIO.toNumpyLe) = onesBytes m' := by
    rw [← em']
    show onesBytes (msgNumber (my.mapArrays id)) = _
    rw [mapArrays_self]
  rw [steps_of_ok exOps exIO exPack hx (by decide), steps_of_ok exOps exIO exPack hy (by decide), ex, ey]
  refine ⟨_, finished_one_after_other _ _ _ _, fun t => ?_⟩
  have hfile : (runOps [] (DiskOp.create 7 :: DiskOp.create 7 :: (writeSteps 7 0 (onesBytes m') ++ writeSteps 7 0 (onesBytes m)))).get? 7 =
      some (.file (onesBytes m ++ (onesBytes m').drop (m + 1))) := by
    rw [runOps_get, filter_own _ _ (fun op hop => ?_)]
    · rw [List.foldl_cons, List.foldl_cons, List.foldl_append]
      have h1 := entryRun_writeSteps 7 (onesBytes m') [] (onesBytes m').length
      rw [List.take_of_length_le (by rw [List.length_nil, writeSteps_length])] at h1
      have h0 : entryRun (entryRun (PyDict.get? ([] : Disk) 7) (DiskOp.create 7)) (DiskOp.create 7) = some (.file []) := rfl
      rw [h0]
      rw [List.length_nil] at h1
      rw [h1, List.nil_append, List.take_length]
      have h2 := entryRun_over 7 (onesBytes m) (onesBytes m') 0 (by rw [onesBytes_length, onesBytes_length]; omega)
      rw [h2, List.take_zero, List.nil_append, Nat.zero_add, onesBytes_length]
    · rcases List.mem_cons.1 hop with rfl | hop
      · rfl
      · rcases List.mem_cons.1 hop with rfl | hop
        · rfl
        · rcases List.mem_append.1 hop with hop | hop <;> exact writeSteps_path hop
  refine (load_cut exOps exIO hfile (onesCodec_refuses fun k hk => ?_) t 0).1
  have hlen := congrArg List.length hk
  rw [List.length_append, List.length_drop, onesBytes_length, onesBytes_length, onesBytes_length] at hlen
  have h1 := onesBytes_get_lt (show m < msgNumber k by omega)
  rw [hk, List.getElem?_append_left (by rw [onesBytes_length]; omega), onesBytes_get_end] at h1
  cases h1

/-- C124 fails for two threads that save to the same path: both saves run to their end without an exception, and the file that they leave,
the shorter one and then the end of the longer one, is neither of the two models: nothing can be loaded from it. -/
theorem C124_same_path_wrong : ∃ (x y : LoadState Int Int Int) (mx my : Msg Int Int) (l : List DiskOp), toDict exOps x 0 = .ok mx ∧
    toDict exOps y 0 = .ok my ∧ (toDiskSteps exOps exIO exPack x 0 [] 7).2 = .ok () ∧ (toDiskSteps exOps exIO exPack y 0 [] 7).2 = .ok () ∧
    Finished [(toDiskSteps exOps exIO exPack x 0 [] 7).1, (toDiskSteps exOps exIO exPack y 0 [] 7).1] l ∧
    ∀ t, modelFromDisk exOps exIO exPack t 0 (runOps [] l) 7 = (t, .error .valueError) := by
  have hok : ∀ name, (toDiskSteps exOps exIO exPack (exNamed name) 0 [] 7).2 = .ok () := fun name => by
    rw [steps_of_ok exOps exIO exPack (exNamed_toDict name) (by decide)]
  have hne : msgNumber (exNamedMsg "a") ≠ msgNumber (exNamedMsg "b") := by
    intro h
    have := msgNumber_inj h
    simp [exNamedMsg] at this
  rcases Nat.lt_or_gt_of_ne hne with h | h
  · obtain ⟨l, h1, h2⟩ := two_writers h _ _ _ _ (exNamed_toDict "a") (exNamed_toDict "b") rfl rfl
    exact ⟨_, _, _, _, l, exNamed_toDict "a", exNamed_toDict "b", hok _, hok _, h1, h2⟩
  · obtain ⟨l, h1, h2⟩ := two_writers h _ _ _ _ (exNamed_toDict "b") (exNamed_toDict "a") rfl rfl
    exact ⟨_, _, _, _, l, exNamed_toDict "b", exNamed_toDict "a", hok _, hok _, h1, h2⟩

/-- A model of one node with two attributes, in either order. -/
def exOrdered (swap : Bool) : LoadState Int Int Int :=
  { nodes := [{ name := "a", id := 1, layers := [], attrs := if swap then [("y", 2), ("x", 1)] else [("x", 1), ("y", 2)] }], shims := [] }

/-- Its message. -/
def exOrderedMsg (swap : Bool) : Msg Int Int :=
  ⟨some [⟨"a", [], []⟩], [if swap then [("y", 102), ("x", 101)] else [("x", 101), ("y", 102)]], [[]], [[]]⟩

theorem exOrdered_toDict (swap : Bool) : toDict exOps (exOrdered swap) 0 = .ok (exOrderedMsg swap) := by
  cases swap <;>
  simp [exOrdered, exOrderedMsg, toDict, walkBfs, bfsLoop, layersOf, nodeToI, mapE, nodeInfo, refsToDict, Node.refNames, Node.dimNames,
    PyDict.keys, nodeAttrs, attrsToDict, exOps, nodeShims, nodeParams, paramsToDict, Node.paramNames, bind, Except.bind, pure, Except.pure]

/-- The hypothesis on the order in `C124_same_bytes_partial` is needed: bytes are loaded, without an exception and without any change of the data, into a model with
the same two attributes in another order, and the bytes of that model are other bytes. -/
theorem C124_order_wrong : ∃ (s s' s'' : LoadState Int Int Int) (data data' : Bytes), modelToBytes exOps exIO exPack s 0 = .ok data ∧
    modelFromBytes exOps exIO exPack s' 0 data = (s'', .ok ()) ∧
    (∀ n m k, s.nodes[0]? = some n → s''.nodes[0]? = some m → m.attrs.get? k = n.attrs.get? k) ∧
    modelToBytes exOps exIO exPack s'' 0 = .ok data' ∧ data' ≠ data := by
  have hload : fromDict exOps (exOrdered true) 0 (exOrderedMsg false) = (exOrdered true, .ok ()) := by
    simp [exOrdered, exOrderedMsg, fromDict, walkBfs, bfsLoop, layersOf, enumFrom', loopE, loadNode, seqE, onNode, loadAttr, exOps, PyDict.get?,
      PyDict.set, loadShims, Heap.modify, List.modify]
  refine ⟨exOrdered false, exOrdered true, exOrdered true, _, _, by simp only [modelToBytes, exOrdered_toDict]; rfl, ?_, ?_,
    by simp only [modelToBytes, exOrdered_toDict]; rfl, ?_⟩
  · simp only [modelFromBytes, exPack_ok.same, mapArrays_id _ exIO exIO_ok]
    exact hload
  · intro n m k hn hm
    simp only [exOrdered, List.getElem?_cons_zero, Option.some.injEq] at hn hm
    subst hn; subst hm
    simp only [PyDict.get?, if_true, Bool.false_eq_true, if_false]
    by_cases h1 : "x" = k
    · subst h1; simp
    · by_cases h2 : "y" = k <;> simp [h1, h2]
  · intro h
    have := msgNumber_inj (onesBytes_inj h)
    simp [exOrderedMsg, Msg.mapArrays] at this

/-- The hypotheses of `C124_history_partial`: a save that is cut after its first step, a save elsewhere, a complete save of another model and a failed one elsewhere; the last
complete model is loaded. -/
example (t : LoadState Int Int Int) :
    modelFromDisk exOps exIO exPack t 0 (List.foldl (afterAttempt exOps exIO exPack) [] ([⟨exNamed "a", 0, 7, 1⟩, ⟨exNamed "a", 0, 8, 1000⟩] ++
      ⟨exNamed "b", 0, 7, msgNumber (exNamedMsg "b") + 2⟩ :: [⟨exDangling, 0, 8, 1⟩])) 7 =
      fromDict exOps t 0 (exNamedMsg "b") := by
  refine (((C124_history_partial exOps exIO exPack exPack_ok exIO_ok [] 7 (by decide)).2 _ _ _ rfl (by simp) (by simp) t 0).1
    (exNamedMsg "b") _ (exNamed_toDict "b") (by simp only [modelToBytes, exNamed_toDict]; rfl) ?_).1
  show (onesBytes (msgNumber ((exNamedMsg "b").mapArrays id))).length < _
  rw [mapArrays_self, onesBytes_length]
  exact Nat.lt_succ_self _

/-- The hypotheses of `C124_threads`: two models are saved to two paths, the second one while the first save is under way. -/
example : ∃ l, Finished [(toDiskSteps exOps exIO exPack (exNamed "a") 0 [] 7).1, (toDiskSteps exOps exIO exPack (exNamed "b") 0 [] 8).1] l ∧
    (runOps [] l).get? 7 = (modelToDisk exOps exIO exPack (exNamed "a") 0 [] 7).1.get? 7 ∧
    (runOps [] l).get? 8 = (modelToDisk exOps exIO exPack (exNamed "b") 0 [] 8).1.get? 8 := by
  have hf : ∃ l, Finished [(toDiskSteps exOps exIO exPack (exNamed "a") 0 [] 7).1, (toDiskSteps exOps exIO exPack (exNamed "b") 0 [] 8).1] l := by
    rw [steps_of_ok exOps exIO exPack (exNamed_toDict "a") (by decide), steps_of_ok exOps exIO exPack (exNamed_toDict "b") (by decide)]
    exact ⟨_, finished_one_after_other _ _ _ _⟩
  obtain ⟨l, hl⟩ := hf
  have hi : ∀ ps l, Finished ps l → Interleaved ps l := by
    intro ps l h
    induction h with
    | stop ps _ => exact .stop ps
    | step ps i op rest l h1 _ ih => exact .step ps i op rest l h1 ih
  have h := (C124_threads exOps exIO exPack [] [(exNamed "a", 0, 7), (exNamed "b", 0, 8)] (by decide) l (hi _ _ hl)).1
  exact ⟨l, hl, (h (exNamed "a", 0, 7) (by simp)).2 hl, (h (exNamed "b", 0, 8) (by simp)).2 hl⟩

/-- The hypotheses of `C124_same_bytes_partial`. -/
example : ∃ data s'', modelToBytes exOps exIO exPack exSrc 0 = .ok data ∧ modelFromBytes exOps exIO exPack exTgt 0 data = (s'', .ok ()) ∧
    modelToBytes exOps exIO exPack s'' 0 = .ok data := by
  have hreach : Reachable exSrc.nodes 0 1 :=
    Relation.ReflTransGen.single ⟨_, rfl, by simp⟩
  obtain ⟨data, s'', h1, h2, _, h4⟩ := C124_same_bytes_partial exOps exIO exPack exPack_ok exIO_ok exSrc exTgt 0 0 (fun a => a) (fun a => a)
    exSrc_ok exTgt_ok
    (by
      intro a n name r _ hn hr
      rcases exSrc_nodes a n hn with ⟨rfl, rfl⟩ | ⟨rfl, rfl⟩
      · by_cases h : "c" = name
        · simp [Node.getRef, PyDict.get?, h] at hr; subst hr; exact hreach
        · by_cases h' : "u" = name <;> simp [Node.getRef, PyDict.get?, h, h'] at hr
      · simp [Node.getRef, PyDict.get?] at hr)
    ⟨rfl, fun _ _ _ _ h => h, by
      intro a n _ hn
      rcases exSrc_nodes a n hn with ⟨rfl, rfl⟩ | ⟨rfl, rfl⟩
      · exact ⟨_, rfl, rfl⟩
      · exact ⟨_, rfl, rfl⟩⟩
    (by
      intro a n m _ hn hm
      rcases exSrc_nodes a n hn with ⟨rfl, rfl⟩ | ⟨rfl, rfl⟩ <;>
        rcases exTgt_nodes _ m hm with ⟨h, rfl⟩ | ⟨h, rfl⟩ <;> first | (exact absurd h (by decide)) | skip
      · refine ⟨?_, rfl, rfl, rfl, rfl⟩
        refine ⟨?_, ?_, ?_, ?_, ?_, ?_⟩ <;> intros <;> first | rfl | skip
        · refine ⟨Iff.rfl, ?_⟩
          rename_i k
          by_cases hk : "nO" = k <;> simp [Node.hasDim, PyDict.get?, hk]
        · rename_i k v hv
          by_cases hk : "x" = k
          · simp [PyDict.get?, hk] at hv; subst hv; subst hk
            exact Or.inl ⟨105, by decide, by decide⟩
          · by_cases hk' : "y" = k
            · simp [PyDict.get?, hk, hk'] at hv; subst hv; subst hk'
              exact Or.inr ⟨⟨.typeError, by decide⟩, by decide⟩
            · simp [PyDict.get?, hk, hk'] at hv
      · refine ⟨?_, rfl, rfl, rfl, rfl⟩
        refine ⟨?_, ?_, ?_, ?_, ?_, ?_⟩ <;> intros <;> first | rfl | skip
        · exact ⟨Iff.rfl, by simp [Node.hasDim, PyDict.get?]⟩
        · rename_i k v hv
          simp [PyDict.get?] at hv)
    (fun _ _ _ _ _ _ _ _ _ _ _ _ h => h)
    (by intro x y b hb; simp only [exOps] at hb ⊢; injection hb with hb; rw [hb])
  exact ⟨data, s'', h1, h2, h4⟩

end Thinc
