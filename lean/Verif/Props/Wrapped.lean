import Verif.Model.Wrapped
import Verif.Lemmas.PyDict
/-!
# C93, C94: bytes, copies and temporary parameters of wrapped models
-/
namespace Thinc.Wrapped

/-- What was written can be read back. -/
def Codec.RoundTrips {α : Type} (c : Codec α) : Prop := ∀ x, c.loads (c.dumps x) = .ok x

/-! ## C93: bytes and copies -/

/-- C93, PyTorch, with callbacks of one's own: if the callback that reads restores in any model what
the callback that writes wrote, so does `from_bytes` for `to_bytes`. -/
theorem C93_torch_callbacks_partial {C M : Type} (msgpack : Codec (C × Bytes)) (hm : msgpack.RoundTrips)
    (ser : M → Bytes) (deser : M → Bytes → Except PyErr M) (hcb : ∀ m m', deser m' (ser m) = .ok m)
    (a b : Shim C M) :
    torchFromBytes msgpack deser b (torchToBytes msgpack ser a) = .ok a := by
  have h1 : msgpack.loads (msgpack.dumps (a.cfg, ser a.model)) = .ok (a.cfg, ser a.model) := hm _
  simp only [torchFromBytes, torchToBytes, h1, bind, Except.bind, hcb]

/-- C93, what is missing: with the default callbacks the parameters that were saved are read and
dropped.  The shim that loads keeps the parameters it had. -/
theorem C93_torch_default_lost {C M S : Type} (msgpack : Codec (C × Bytes)) (hm : msgpack.RoundTrips)
    (torchSave : Codec S) (ht : torchSave.RoundTrips) (stateDict : M → S) (a b : Shim C M) :
    torchFromBytes msgpack (defaultDeserialize torchSave) b
      (torchToBytes msgpack (defaultSerialize stateDict torchSave) a) = .ok ⟨a.cfg, b.model⟩ := by
  have h1 : msgpack.loads (msgpack.dumps (a.cfg, torchSave.dumps (stateDict a.model))) =
    .ok (a.cfg, torchSave.dumps (stateDict a.model)) := hm _
  have h2 : torchSave.loads (torchSave.dumps (stateDict a.model)) = .ok (stateDict a.model) := ht _
  simp only [torchFromBytes, torchToBytes, defaultDeserialize, defaultSerialize, h1, h2, bind, Except.bind]

/-- C93, a concrete case: weights 1, 2 saved, loaded into a model with weights 0, 0. -/
theorem C93_torch_default_wrong {C : Type} (cfg : C) (msgpack : Codec (C × Bytes)) (hm : msgpack.RoundTrips)
    (torchSave : Codec (List Nat)) (ht : torchSave.RoundTrips) :
    ∃ r, torchFromBytes msgpack (defaultDeserialize torchSave) ⟨cfg, [0, 0]⟩
        (torchToBytes msgpack (defaultSerialize (fun m : List Nat => m) torchSave) ⟨cfg, [1, 2]⟩) = .ok r ∧
      r.model = [0, 0] := by
  refine ⟨_, C93_torch_default_lost msgpack hm torchSave ht _ _ _, rfl⟩

/-- A codec that round trips, for the examples: numbers below 256. -/
def byteCodec : Codec (BitVec 8) := ⟨fun x => [x], fun b => match b with
  | [x] => .ok x
  | _ => .error .valueError⟩

/-- C93, non-vacuity: there are codecs and callbacks as the theorems ask for. -/
example : byteCodec.RoundTrips ∧
    Codec.RoundTrips (⟨fun x => x.1 :: x.2, fun b => match b with
      | x :: rest => .ok (x, rest)
      | [] => .error .valueError⟩ : Codec (BitVec 8 × Bytes)) ∧
    ∀ m m' : BitVec 8, (fun (_ : BitVec 8) b => byteCodec.loads b) m' (byteCodec.dumps m) = .ok m :=
  ⟨fun _ => rfl, fun _ => rfl, fun _ _ => rfl⟩

/-- C93, TorchScript: `from_bytes` restores what `to_bytes` wrote, whatever the shim held. -/
theorem C93_torchscript {C M : Type} (msgpack : Codec (C × Bytes)) (hm : msgpack.RoundTrips) (jit : Codec M)
    (hj : jit.RoundTrips) (a b : Shim C M) :
    scriptFromBytes msgpack jit b (scriptToBytes msgpack jit a) = .ok a := by
  have h1 : msgpack.loads (msgpack.dumps (a.cfg, jit.dumps a.model)) = .ok (a.cfg, jit.dumps a.model) := hm _
  have h2 : jit.loads (jit.dumps a.model) = .ok a.model := hj _
  simp only [scriptFromBytes, scriptToBytes, h1, h2, bind, Except.bind]

/-- C93, through a file: what was written to a path is what is read from it. -/
theorem C93_disk {C M : Type} (fromBytes : Shim C M → Bytes → Except PyErr (Shim C M)) (b : Shim C M)
    (disk : PyDict Nat Bytes) (path : Nat) (data : Bytes) :
    shimFromDisk fromBytes b (disk.set path data) path = fromBytes b data := by
  simp only [shimFromDisk, PyDict.get?_set_self]

/-- C93, TensorFlow: a model that h5 can represent is restored, whatever the shim held (also
nothing); the configuration of the shim is not part of the bytes. -/
theorem C93_tf_h5 {C K W : Type} (h5 : Codec (Keras K W)) (hh : h5.RoundTrips) (a b : Shim C (Option (Keras K W)))
    (m : Keras K W) (ha : a.model = some m) (h5ok : m.h5 = true) :
    ∃ data, tfToBytes h5 a = .ok data ∧ tfFromBytes h5 b data = .ok ⟨b.cfg, some m⟩ := by
  refine ⟨.bytes (h5.dumps m), ?_, ?_⟩
  · simp only [tfToBytes, ha, h5ok, if_true]
  · simp only [tfFromBytes, hh m, Except.map]

/-- C93, TensorFlow: a registered subclass is restored into a shim that holds a model of its kind;
into a shim without a model it is not: the call fails. -/
theorem C93_tf_subclass_partial {C K W : Type} (h5 : Codec (Keras K W)) (a b : Shim C (Option (Keras K W)))
    (m : Keras K W) (name : Nat) (ha : a.model = some m) (h5ok : m.h5 = false) (hn : m.catalogueName = some name) :
    ∃ data, tfToBytes h5 a = .ok data ∧
      (∀ m', b.model = some m' → tfFromBytes h5 b data = .ok ⟨b.cfg, some { m' with weights := m.weights }⟩) ∧
      (b.model = none → tfFromBytes h5 b data = .error .attributeError) := by
  refine ⟨.weights name m.weights, ?_, ?_, ?_⟩
  · simp only [tfToBytes, ha, h5ok, Bool.false_eq_true, if_false, hn]
  · intro m' hm'
    simp only [tfFromBytes, hm']
  · intro hb
    simp only [tfFromBytes, hb]

/-- C93, errors: bytes that cannot be read raise the reader's error, with the default callbacks too; a file that is not there raises; a
TensorFlow model that h5 cannot represent and whose class is not registered is not written, and neither is a shim without a model. -/
theorem C93_errors {C M S K W : Type} (torchSave : Codec S) (h5 : Codec (Keras K W)) :
    (∀ (model : M) (b : Bytes) (e : PyErr), torchSave.loads b = .error e → defaultDeserialize torchSave model b = .error e) ∧
    (∀ (msgpack : Codec (C × Bytes)) (deser : M → Bytes → Except PyErr M) (sh : Shim C M) (b : Bytes) (e : PyErr),
      msgpack.loads b = .error e → torchFromBytes msgpack deser sh b = .error e) ∧
    (∀ (fromBytes : Shim C M → Bytes → Except PyErr (Shim C M)) (sh : Shim C M) (disk : PyDict Nat Bytes) (path : Nat),
      disk.get? path = none → shimFromDisk fromBytes sh disk path = .error (.userError 2)) ∧
    (∀ (sh : Shim C (Option (Keras K W))) (m : Keras K W), sh.model = some m → m.h5 = false → m.catalogueName = none →
      tfToBytes h5 sh = .error .valueError) ∧
    (∀ sh : Shim C (Option (Keras K W)), sh.model = none → tfToBytes h5 sh = .error .attributeError) := by
  refine ⟨fun model b e h => ?_, fun msgpack deser sh b e h => ?_, fun f sh disk path h => ?_, fun sh m h h' h'' => ?_, fun sh h => ?_⟩
  · simp only [defaultDeserialize, h, bind, Except.bind]
  · simp only [torchFromBytes, h, bind, Except.bind]
  · simp only [shimFromDisk, h]
  · simp only [tfToBytes, h, h', h'', Bool.false_eq_true, if_false]
  · simp only [tfToBytes, h]

/-- C93, non-vacuity of `C93_errors`: such bytes, disks and models exist. -/
example : byteCodec.loads [] = .error .valueError ∧ PyDict.get? ([(1, [])] : PyDict Nat Bytes) 2 = none ∧
    ∃ m : Keras Nat Nat, m.h5 = false ∧ m.catalogueName = none := ⟨rfl, rfl, ⟨1, 5, false, none⟩, rfl, rfl⟩

/-- C93, copies of other shims: the copy equals the original, which is unchanged. -/
theorem C93_copy {C M : Type} (sh : Shim C M) : (shimCopy sh).1 = sh ∧ (shimCopy sh).2 = sh := ⟨rfl, rfl⟩

/-- C93, what is missing: copying a TensorFlow shim takes the model away from the original, and the
copy has freshly initialised weights instead of the trained ones. -/
theorem C93_tf_copy_wrong {C K W : Type} (fresh : K → Keras K W) (sh : Shim C (Option (Keras K W))) (m : Keras K W)
    (h : sh.model = some m) :
    ∃ original copied, tfCopy fresh sh = .ok (original, copied) ∧ original.model = none ∧
      copied.model.map (·.weights) = some (fresh m.kind).weights := by
  refine ⟨⟨sh.cfg, none⟩, ⟨sh.cfg, some (fresh m.kind)⟩, ?_, rfl, rfl⟩
  simp only [tfCopy, h]

/-- C93, non-vacuity of the three theorems about TensorFlow. -/
example : ∃ m : Keras Nat Nat, ∃ sh : Shim Nat (Option (Keras Nat Nat)), sh.model = some m ∧ m.h5 = false ∧
    m.catalogueName = some 3 ∧ m.weights ≠ 0 := ⟨⟨1, 5, false, some 3⟩, ⟨0, some ⟨1, 5, false, some 3⟩⟩, rfl, rfl, rfl, by decide⟩

/-! ## C94: temporary parameters -/

theorem selectState_pairs {V : Type} (pre : List Char) (params : PyDict PKey V) (acc : PyDict (List Char) V)
    (h : ∀ p ∈ params, ∃ i n, p.1 = .pair i n) : selectState pre params acc = acc := by
  induction params generalizing acc with
  | nil => rfl
  | cons p rest ih =>
    obtain ⟨i, n, hp⟩ := h p (by simp)
    obtain ⟨k, v⟩ := p
    simp only at hp
    subst hp
    simp only [selectState]
    exact ih acc (fun q hq => h q (by simp [hq]))

/-- C94, what is missing: parameters given under the keys the optimizer uses, `(shim id, name)`,
are ignored: the body runs with the parameters the module has, whatever values were given. -/
theorem C94_optimizer_keys_ignored {V R : Type} (pre : List Char) (params : PyDict PKey V)
    (body : PyDict (List Char) V → PyDict (List Char) V × Except PyErr R) (m : PyDict (List Char) V)
    (h : ∀ p ∈ params, ∃ i n, p.1 = .pair i n) : torchUseParams pre params body m = body m := by
  simp only [torchUseParams, selectState_pairs pre params [] h, List.isEmpty_nil, if_true]

/-- C94, a concrete case: the average 7 of the parameter `w` of the shim is given; the body reads 1. -/
theorem C94_optimizer_keys_wrong : torchUseParams ['p'] [(.pair 1 ['w'], 7)]
    (fun m => (m, .ok (PyDict.get? m ['w']))) [(['w'], 1)] = ([(['w'], 1)], .ok (some 1)) := by
  rw [C94_optimizer_keys_ignored]
  · decide
  · intro p hp
    simp only [List.mem_singleton] at hp
    subst hp
    exact ⟨_, _, rfl⟩

theorem removeAll_free (p s : List Char) (h : ¬ p <:+: s) : removeAll p s = s := by
  induction s with
  | nil => rw [removeAll]
  | cons c cs ih =>
    rw [removeAll]
    have h1 : ¬ p.isPrefixOf (c :: cs) = true := by
      rw [List.isPrefixOf_iff_prefix]
      intro hp
      exact h hp.isInfix
    rw [if_neg h1, ih]
    intro hi
    exact h (hi.trans (List.suffix_cons c cs).isInfix)

theorem removeAll_prefix (p s : List Char) (hp : p ≠ []) (h : ¬ p <:+: s) : removeAll p (p ++ s) = s := by
  cases p with
  | nil => exact absurd rfl hp
  | cons c p =>
    rw [List.cons_append, removeAll]
    have h1 : (c :: p).isPrefixOf (c :: (p ++ s)) = true := by
      rw [List.isPrefixOf_iff_prefix]
      exact ⟨s, rfl⟩
    rw [if_pos h1]
    have h2 : (p ++ s).drop ((c :: p).length - 1) = s := by simp
    rw [h2]
    exact removeAll_free _ _ h

/-- The dictionary with a value for every parameter of a module, under the string keys of a shim. -/
def keyed {V : Type} (pre : List Char) (vals : PyDict (List Char) V) : PyDict PKey V :=
  vals.map (fun p => (.str (pre ++ p.1), p.2))

theorem set_append_new {κ V : Type} [DecidableEq κ] (d : PyDict κ V) (k : κ) (v : V) (h : k ∉ d.map Prod.fst) :
    PyDict.set d k v = d ++ [(k, v)] := by
  induction d with
  | nil => rfl
  | cons p d ih =>
    obtain ⟨k', v'⟩ := p
    simp only [List.map_cons, List.mem_cons, not_or] at h
    simp only [PyDict.set, if_neg (Ne.symm h.1), List.cons_append]
    congr 1
    exact ih h.2

theorem selectState_keyed {V : Type} (pre : List Char) (hp : pre ≠ []) (vals acc : PyDict (List Char) V)
    (hfree : ∀ p ∈ vals, ¬ pre <:+: p.1) (hnd : (acc.map Prod.fst ++ vals.map Prod.fst).Nodup) :
    selectState pre (keyed pre vals) acc = acc ++ vals := by
  induction vals generalizing acc with
  | nil => simp [keyed, selectState]
  | cons p rest ih =>
    obtain ⟨k, v⟩ := p
    have h1 : pre.isPrefixOf (pre ++ k) = true := by
      rw [List.isPrefixOf_iff_prefix]
      exact ⟨k, rfl⟩
    have h2 : removeAll pre (pre ++ k) = k := removeAll_prefix pre k hp (hfree (k, v) (by simp))
    have h3 : k ∉ acc.map Prod.fst := by
      intro hk
      rw [List.nodup_append] at hnd
      exact hnd.2.2 k hk k (by simp) rfl
    have hstep : selectState pre (keyed pre ((k, v) :: rest)) acc =
        selectState pre (keyed pre rest) (acc ++ [(k, v)]) := by
      simp only [keyed, List.map_cons, selectState, h1, if_true, h2]
      rw [set_append_new acc k v h3]
    rw [hstep, ih _ (fun q hq => hfree q (by simp [hq])) (by simpa using hnd)]
    simp

theorem get?_of_nodup {κ V : Type} [DecidableEq κ] (d : PyDict κ V) (hnd : (d.map Prod.fst).Nodup) (p : κ × V)
    (hp : p ∈ d) : PyDict.get? d p.1 = some p.2 := by
  induction d with
  | nil => simp at hp
  | cons q d ih =>
    obtain ⟨k, v⟩ := q
    simp only [List.map_cons, List.nodup_cons] at hnd
    rcases List.mem_cons.mp hp with rfl | hp
    · simp only [PyDict.get?, if_true]
    · have hne : k ≠ p.1 := by
        intro e
        exact hnd.1 (e ▸ List.mem_map_of_mem hp)
      simp only [PyDict.get?, if_neg hne]
      exact ih hnd.2 hp

theorem get?_isSome_of_mem {κ V : Type} [DecidableEq κ] (d : PyDict κ V) (k : κ) (hk : k ∈ d.map Prod.fst) :
    (PyDict.get? d k).isSome = true := by
  induction d with
  | nil => simp at hk
  | cons q d ih =>
    obtain ⟨k', v⟩ := q
    simp only [PyDict.get?]
    split
    · rfl
    · rename_i hne
      simp only [List.map_cons, List.mem_cons] at hk
      rcases hk with rfl | hk
      · exact absurd rfl hne
      · exact ih hk

/-- Loading a state with the same names in the same order gives that state. -/
theorem loadStateDict_same {V : Type} (m s : PyDict (List Char) V) (hk : s.map Prod.fst = m.map Prod.fst)
    (hnd : (m.map Prod.fst).Nodup) : loadStateDict m s = .ok s := by
  have h1 : (m.all fun p => (PyDict.get? s p.1).isSome) = true := by
    rw [List.all_eq_true]
    intro p hp
    exact get?_isSome_of_mem s p.1 (by rw [hk]; exact List.mem_map_of_mem hp)
  have h2 : (s.all fun p => (PyDict.get? m p.1).isSome) = true := by
    rw [List.all_eq_true]
    intro p hp
    exact get?_isSome_of_mem m p.1 (by rw [← hk]; exact List.mem_map_of_mem hp)
  simp only [loadStateDict, h1, h2, Bool.and_true, if_true, Except.ok.injEq]
  have hlen : m.length = s.length := by
    have := congrArg List.length hk
    simpa using this.symm
  apply List.ext_getElem
  · simpa using hlen
  · intro i hi1 hi2
    have him : i < m.length := by simpa using hi1
    have hname : s[i].1 = m[i].1 := by
      have := List.getElem_of_eq hk (by simpa using hi2)
      simpa using this
    have hget := get?_of_nodup s (by rw [hk]; exact hnd) s[i] (List.getElem_mem hi2)
    simp only [List.getElem_map]
    rw [← hname, hget]
    rfl

/-- C94, the part that holds.  With a value for every parameter under the string keys of the shim,
the body runs with exactly these values; when it returns normally, having kept the names, the
module has its old values again. -/
theorem C94_string_keys_partial {V R : Type} (pre : List Char) (hp : pre ≠ []) (m vals : PyDict (List Char) V)
    (hne : vals ≠ []) (hnd : (m.map Prod.fst).Nodup) (hk : vals.map Prod.fst = m.map Prod.fst)
    (hfree : ∀ p ∈ vals, ¬ pre <:+: p.1)
    (body : PyDict (List Char) V → PyDict (List Char) V × Except PyErr R) (m' : PyDict (List Char) V) (r : R)
    (hb : body vals = (m', .ok r)) (hnames : m'.map Prod.fst = m.map Prod.fst) :
    torchUseParams pre (keyed pre vals) body m = (m, .ok r) := by
  have hs : selectState pre (keyed pre vals) [] = vals := by
    rw [selectState_keyed pre hp vals [] hfree (by simp only [List.map_nil, List.nil_append]; rw [hk]; exact hnd)]
    rfl
  have he : vals.isEmpty = false := by simpa using hne
  simp only [torchUseParams, hs, he, Bool.false_eq_true, if_false, loadStateDict_same m vals hk hnd, hb]
  rw [loadStateDict_same m' m hnames.symm (by rw [hnames]; exact hnd)]

theorem mem_of_get?_isSome {κ V : Type} [DecidableEq κ] (d : PyDict κ V) (k : κ) (h : (PyDict.get? d k).isSome = true) :
    k ∈ d.map Prod.fst := by
  induction d with
  | nil => simp [PyDict.get?] at h
  | cons q d ih =>
    obtain ⟨k', v⟩ := q
    simp only [PyDict.get?] at h
    split at h
    · rename_i e
      simp [e]
    · simp only [List.map_cons, List.mem_cons]
      exact .inr (ih h)

/-- C94: values for other names than those of the module, too many or too few, are refused: the body does not run and the module
is unchanged. -/
theorem C94_other_names_refused {V R : Type} (pre : List Char) (hp : pre ≠ []) (m vals : PyDict (List Char) V)
    (hne : vals ≠ []) (hnd : (vals.map Prod.fst).Nodup) (hfree : ∀ p ∈ vals, ¬ pre <:+: p.1)
    (hk : ¬ ∀ n, n ∈ vals.map Prod.fst ↔ n ∈ m.map Prod.fst)
    (body : PyDict (List Char) V → PyDict (List Char) V × Except PyErr R) :
    torchUseParams pre (keyed pre vals) body m = (m, .error (.userError 1)) := by
  have hs : selectState pre (keyed pre vals) [] = vals := by
    rw [selectState_keyed pre hp vals [] hfree (by simpa using hnd)]
    rfl
  have he : vals.isEmpty = false := by simpa using hne
  have hl : loadStateDict m vals = .error (.userError 1) := by
    unfold loadStateDict
    rw [if_neg]
    intro hall
    rw [Bool.and_eq_true, List.all_eq_true, List.all_eq_true] at hall
    refine hk fun n => ⟨fun h => ?_, fun h => ?_⟩
    · obtain ⟨q, hq, rfl⟩ := List.mem_map.1 h
      exact mem_of_get?_isSome m q.1 (hall.2 q hq)
    · obtain ⟨q, hq, rfl⟩ := List.mem_map.1 h
      exact mem_of_get?_isSome vals q.1 (hall.1 q hq)
  simp only [torchUseParams, hs, he, Bool.false_eq_true, if_false, hl]

/-- C94, non-vacuity: a value for a name the module does not have. -/
example : torchUseParams (R := Unit) ['p'] (keyed ['p'] [(['w'], 7), (['b'], 8)]) (fun m => (m, .ok ())) [(['w'], 1)] =
    ([(['w'], 1)], .error (.userError 1)) := by
  refine C94_other_names_refused _ (by simp) _ _ (by simp) (by decide) ?_ ?_ _
  · decide
  · intro h
    have := h ['b']
    simp at this

/-- C94, what is missing: when the body raises, the given values stay in the module. -/
theorem C94_exception_leaks {V R : Type} (pre : List Char) (hp : pre ≠ []) (m vals : PyDict (List Char) V)
    (hne : vals ≠ []) (hnd : (m.map Prod.fst).Nodup) (hk : vals.map Prod.fst = m.map Prod.fst)
    (hfree : ∀ p ∈ vals, ¬ pre <:+: p.1) (e : PyErr) :
    torchUseParams (R := R) pre (keyed pre vals) (fun m => (m, .error e)) m = (vals, .error e) := by
  have hs : selectState pre (keyed pre vals) [] = vals := by
    rw [selectState_keyed pre hp vals [] hfree (by simp only [List.map_nil, List.nil_append]; rw [hk]; exact hnd)]
    rfl
  have he : vals.isEmpty = false := by simpa using hne
  simp only [torchUseParams, hs, he, Bool.false_eq_true, if_false, loadStateDict_same m vals hk hnd]

/-- C94, non-vacuity: two parameters, prefix `p_`. -/
example : torchUseParams ['p', '_'] (keyed ['p', '_'] [(['w'], 7), (['b'], 8)])
    (fun m => (m, .ok (PyDict.get? m ['b']))) [(['w'], 1), (['b'], 2)] = ([(['w'], 1), (['b'], 2)], .ok (some 8)) :=
  C94_string_keys_partial ['p', '_'] (by simp) [(['w'], 1), (['b'], 2)] [(['w'], 7), (['b'], 8)] (by simp) (by decide) rfl
    (by
      intro p hp
      simp only [List.mem_cons, List.not_mem_nil, or_false] at hp
      rcases hp with rfl | rfl
      · intro h
        have := h.length_le
        simp at this
      · intro h
        have := h.length_le
        simp at this) _ _ _ rfl rfl

/-- C94, what is missing: models and shims draw their ids from different counters, so the first
model and the first shim have the same id, whatever was made in between; parameters of the same
name then have the same optimizer key, and share moments and averages. -/
theorem C94_keys_collide (c : Counters) (h : c.model = c.shim) (name : List Char) :
    PKey.pair (newModelId c).1 name = PKey.pair (newShimId (newModelId c).2).1 name := by
  simp only [newModelId, newShimId, h]

end Thinc.Wrapped
