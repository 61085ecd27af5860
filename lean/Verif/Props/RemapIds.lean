import Verif.Model.RemapIds
import Verif.Lemmas.Softmax
/-!
# C86: mapping keys to rows of a table
-/
namespace Thinc.RemapIds
variable {κ : Type} [DecidableEq κ]

/-- The keys in the order of the rows: of a sequence, of a vector, or of one column of an array. -/
inductive KeysOf (ofInt : ℤ → κ) : Option ℤ → IdInput κ → List κ → Prop
  | keys (column : Option ℤ) (xs : List κ) : KeysOf ofInt column (.keys xs) xs
  | ints (ks : List ℤ) : KeysOf ofInt none (.ints1 ks) (ks.map ofInt)
  | column (A : Mat ℤ) (c : ℕ) (hc : c < A.cols) :
      KeysOf ofInt (some c) (.ints2 A) (List.ofFn fun i : Fin A.rows => ofInt (A.at i c))
  | negative (A : Mat ℤ) (c : ℕ) (hc : c < A.cols) :
      KeysOf ofInt (some (c - A.cols)) (.ints2 A) (List.ofFn fun i : Fin A.rows => ofInt (A.at i c))

/-- The column of ids: one row for every key, its value in the table or the default. -/
def IsColumn (table : PyDict κ ℤ) (default : ℤ) (xs : List κ) (Y : Mat ℤ) : Prop :=
  Y.rows = xs.length ∧ Y.cols = 1 ∧ ∀ (i : ℕ) (hi : i < xs.length),
    (∀ v, table.get? xs[i] = some v → Y.at i 0 = v) ∧ (table.get? xs[i] = none → Y.at i 0 = default)

theorem isColumn_lookup (table : PyDict κ ℤ) (default : ℤ) (xs : List κ) :
    IsColumn table default xs (idColumn (tableLookup table default xs)) := by
  refine ⟨by simp [idColumn, tableLookup], rfl, fun i hi => ?_⟩
  have e : (idColumn (tableLookup table default xs)).at i 0 = (table.get? xs[i]).getD default := by
    simp [Mat.at, idColumn, tableLookup, hi]
  rw [e]
  exact ⟨fun v hv => by rw [hv]; rfl, fun h => by rw [h]; rfl⟩

/-- **C86** (`remap_ids.v1`): one row for every key, in the same order. -/
theorem C86_remap_v1 (table : PyDict κ ℤ) (default : ℤ) (xs : List κ) (dY : Mat ℤ) :
    IsColumn table default xs (remapV1 table default xs).1 ∧ (remapV1 table default xs).2 dY = .emptyList :=
  ⟨isColumn_lookup table default xs, rfl⟩

theorem intColumn_ok (A : Mat ℤ) (c : ℕ) (hc : c < A.cols) :
    intColumn A c = .ok (List.ofFn fun i : Fin A.rows => A.at i c) ∧
    intColumn A (c - A.cols) = .ok (List.ofFn fun i : Fin A.rows => A.at i c) := by
  have e : ((List.range A.rows).map fun i => A.at i c) = List.ofFn fun i : Fin A.rows => A.at i c :=
    List.ext_getElem (by simp) fun i h1 h2 => by simp
  have h1 : npIndex A.cols c = .ok c := by
    unfold npIndex
    rw [if_pos (by omega)]
    simp
  have h2 : npIndex A.cols (c - A.cols) = .ok c := by
    unfold npIndex
    rw [if_neg (by omega), if_pos (by omega)]
    simp
  constructor
  · simp only [intColumn, h1, bind, Except.bind, pure, Except.pure, e]
  · simp only [intColumn, h2, bind, Except.bind, pure, Except.pure, e]

theorem remapKeys_ok {ofInt : ℤ → κ} {column : Option ℤ} {inputs : IdInput κ} {xs : List κ}
    (h : KeysOf ofInt column inputs xs) : remapKeys ofInt column inputs = .ok xs := by
  cases h with
  | keys => rfl
  | ints => rfl
  | column A c hc =>
    simp only [remapKeys, (intColumn_ok A c hc).1, bind, Except.bind, pure, Except.pure, List.map_ofFn]
    rfl
  | negative A c hc =>
    simp only [remapKeys, (intColumn_ok A c hc).2, bind, Except.bind, pure, Except.pure, List.map_ofFn]
    rfl

/-- **C86** (`remap_ids.v2`): for a sequence of keys, a vector of integers and one column of an array the output has one
row for every key, in the same order; without a table it raises ValueError.
Missing for the full property: zero gradients (`C86_remap_gradient_uninitialised`). -/
theorem C86_remap_v2_partial {ofInt : ℤ → κ} {column : Option ℤ} {inputs : IdInput κ} {xs : List κ}
    (h : KeysOf ofInt column inputs xs) (table : PyDict κ ℤ) (default : ℤ) (mem : ℕ → ℤ) :
    (∃ Y callback, remapV2 ofInt (some table) default column mem inputs = .ok (Y, callback) ∧
      IsColumn table default xs Y) ∧
    remapV2 ofInt none default column mem inputs = .error .valueError := by
  refine ⟨⟨_, remapBack mem inputs, ?_, isColumn_lookup table default xs⟩, rfl⟩
  simp only [remapV2, remapKeys_ok h, bind, Except.bind, pure, Except.pure]

theorem get?_set {κ α : Type} [DecidableEq κ] (d : PyDict κ α) (k q : κ) (v : α) :
    (d.set k v).get? q = if q = k then some v else d.get? q := by
  induction d with
  | nil =>
    simp only [PyDict.set, PyDict.get?]
    split_ifs with h1 h2 h2
    · rfl
    · exact absurd h1.symm h2
    · exact absurd h2.symm h1
    · rfl
  | cons e d ih =>
    obtain ⟨k', v'⟩ := e
    simp only [PyDict.set]
    by_cases hk : k' = k
    · subst hk
      simp only [if_true, PyDict.get?]
      by_cases hq : k' = q
      · simp [hq]
      · simp [hq, Ne.symm hq]
    · simp only [hk, if_false, PyDict.get?, ih]
      by_cases hq : k' = q
      · subst hq
        simp [hk]
      · simp [hq]

theorem get?_foldl (table : PyDict ℤ ℤ) (hnd : (table.map Prod.fst).Nodup) (m : PyDict ℤ ℤ) (q : ℤ) :
    (table.foldl (fun m e => m.set e.1 e.2) m).get? q = (table.get? q <|> m.get? q) := by
  induction table generalizing m with
  | nil => simp [PyDict.get?]
  | cons e table ih =>
    obtain ⟨k, v⟩ := e
    rw [List.map_cons, List.nodup_cons] at hnd
    rw [List.foldl_cons, ih hnd.2, get?_set]
    simp only [PyDict.get?]
    by_cases hk : k = q
    · subst hk
      have : PyDict.get? table k = none := by
        have h1 := hnd.1
        clear ih hnd
        induction table with
        | nil => rfl
        | cons e table ih =>
          obtain ⟨k', v'⟩ := e
          simp only [List.map_cons, List.mem_cons, not_or] at h1
          simp only [PyDict.get?, Ne.symm h1.1, if_false]
          exact ih h1.2
      simp [this]
    · simp [hk, Ne.symm hk]

theorem premapKeys_ok {column : Option ℤ} {inputs : IdInput ℤ} {xs : List ℤ}
    (h : KeysOf id column inputs xs) (hk : ∀ ys, inputs ≠ .keys ys) : premapKeys column inputs = .ok xs := by
  cases h with
  | keys c ys => exact absurd rfl (hk _)
  | ints => simp [premapKeys]
  | column A c hc => exact (intColumn_ok A c hc).1
  | negative A c hc => exact (intColumn_ok A c hc).2

/-- **C86** (`premap_ids`): for a vector of integers and one column of an array, and every table of integers with
distinct keys, the output has one row for every key, in the same order, and is the same as that of `remap_ids.v2`; the
callback gives zeros of the shape of the input. -/
theorem C86_premap {column : Option ℤ} {inputs : IdInput ℤ} {xs : List ℤ} (h : KeysOf id column inputs xs)
    (hk : ∀ ys, inputs ≠ .keys ys) (table : PyDict ℤ ℤ) (hnd : (table.map Prod.fst).Nodup) (default : ℤ)
    (mem : ℕ → ℤ) :
    ∃ Y callback callback', premap table default column inputs = .ok (Y, callback) ∧
      IsColumn table default xs Y ∧ remapV2 id (some table) default column mem inputs = .ok (Y, callback') ∧
      (∀ ks dY, inputs = .ints1 ks → callback dY = .array [ks.length] fun _ => 0) ∧
      (∀ A dY, inputs = .ints2 A → callback dY = .array [A.rows, A.cols] fun _ => 0) := by
  have e : premapLookup (premapTable table) default xs = tableLookup table default xs := by
    refine List.map_congr_left fun k _ => ?_
    have : (premapTable table).get? k = table.get? k := by
      rw [premapTable, get?_foldl table hnd]
      cases table.get? k <;> rfl
    rw [this]
    cases table.get? k <;> rfl
  refine ⟨idColumn (tableLookup table default xs), fun _ => premapBack inputs, remapBack mem inputs, ?_,
    isColumn_lookup table default xs, ?_, ?_, ?_⟩
  · simp only [premap, premapKeys_ok h hk, bind, Except.bind, pure, Except.pure, e]
  · simp only [remapV2, remapKeys_ok h, bind, Except.bind, pure, Except.pure]
  · rintro ks dY rfl; rfl
  · rintro A dY rfl; rfl

theorem intColumn_error (A : Mat ℤ) (column : ℤ) (h : ¬ ∃ c : ℕ, c < A.cols ∧ (column = c ∨ column = c - A.cols)) :
    intColumn A column = .error .indexError := by
  have : npIndex A.cols column = .error .indexError := by
    unfold npIndex
    rw [if_neg, if_neg]
    · rintro ⟨h1, h2⟩
      exact h ⟨(column + A.cols).toNat, by omega, by omega⟩
    · rintro ⟨h1, h2⟩
      exact h ⟨column.toNat, by omega, by omega⟩
  simp only [intColumn, this, bind, Except.bind]

/-- **C86**: with a table, `remap_ids.v2` raises exactly when the input has no keys in this sense: a column of a vector, a
column number outside the array, or an array with two axes and rows but no column number. -/
theorem C86_remap_raises_iff (ofInt : ℤ → κ) (column : Option ℤ) (inputs : IdInput κ) (table : PyDict κ ℤ) (default : ℤ)
    (mem : ℕ → ℤ) :
    (∃ e, remapV2 ofInt (some table) default column mem inputs = .error e) ↔
      (¬ ∃ xs, KeysOf ofInt column inputs xs) ∧ ¬ (column = none ∧ ∃ A, inputs = .ints2 A ∧ A.rows = 0) := by
  constructor
  · rintro ⟨e, he⟩
    refine ⟨?_, ?_⟩
    · rintro ⟨xs, hx⟩
      simp only [remapV2, remapKeys_ok hx, bind, Except.bind, pure, Except.pure, reduceCtorEq] at he
    · rintro ⟨rfl, A, rfl, hA⟩
      simp only [remapV2, remapKeys, rowKeys, hA, if_true, bind, Except.bind, pure, Except.pure, reduceCtorEq] at he
  · rintro ⟨h1, h2⟩
    cases inputs with
    | keys xs => exact absurd ⟨xs, .keys column xs⟩ h1
    | ints1 ks =>
      cases column with
      | none => exact absurd ⟨_, .ints ks⟩ h1
      | some c => exact ⟨.indexError, rfl⟩
    | ints2 A =>
      cases column with
      | none =>
        have hA : A.rows ≠ 0 := fun hA => h2 ⟨rfl, A, rfl, hA⟩
        exact ⟨.typeError, by simp only [remapV2, remapKeys, rowKeys, if_neg hA, bind, Except.bind]⟩
      | some c =>
        refine ⟨.indexError, ?_⟩
        rw [remapV2, remapKeys, intColumn_error A c]
        · rfl
        · rintro ⟨n, hn, rfl | rfl⟩
          · exact h1 ⟨_, .column A n hn⟩
          · exact h1 ⟨_, .negative A n hn⟩

/-- **C86**: `premap_ids` raises exactly for sequences that are not arrays and for arrays without keys in this sense (for an
array with two axes a column number is needed). -/
theorem C86_premap_raises_iff (column : Option ℤ) (inputs : IdInput ℤ) (table : PyDict ℤ ℤ) (default : ℤ) :
    (∃ e, premap table default column inputs = .error e) ↔
      (∃ ys, inputs = .keys ys) ∨ ¬ ∃ xs, KeysOf id column inputs xs := by
  constructor
  · rintro ⟨e, he⟩
    by_cases hk : ∃ ys, inputs = .keys ys
    · exact .inl hk
    · right
      rintro ⟨xs, hx⟩
      simp only [premap, premapKeys_ok hx (fun ys h => hk ⟨ys, h⟩), bind, Except.bind, pure, Except.pure,
        reduceCtorEq] at he
  · intro h
    cases inputs with
    | keys xs => exact ⟨.attributeError, rfl⟩
    | ints1 ks =>
      rcases h with ⟨ys, h⟩ | h1
      · cases h
      · cases column with
        | none =>
          exact absurd ⟨_, .ints ks⟩ h1
        | some c => exact ⟨.indexError, rfl⟩
    | ints2 A =>
      rcases h with ⟨ys, h⟩ | h1
      · cases h
      · cases column with
        | none => exact ⟨.valueError, rfl⟩
        | some c =>
          refine ⟨.indexError, ?_⟩
          rw [premap, premapKeys, intColumn_error A c]
          · rfl
          · rintro ⟨n, hn, rfl | rfl⟩
            · exact h1 ⟨_, .column A n hn⟩
            · exact h1 ⟨_, .negative A n hn⟩

/-- **C86** fails for the gradient of `remap_ids.v2`: for an array with two axes the callback returns an array of the
shape of the output, not of the input, and its contents are whatever was in memory (`premap_ids` returns zeros of the
shape of the input). -/
theorem C86_remap_gradient_uninitialised (ofInt : ℤ → κ) (table : PyDict κ ℤ) (default : ℤ) (A : Mat ℤ) (c : ℕ)
    (hc : c < A.cols) (mem : ℕ → ℤ) :
    ∃ Y callback, remapV2 ofInt (some table) default (some c) mem (.ints2 A) = .ok (Y, callback) ∧
      ∀ dY, dY.rows = A.rows → dY.cols = 1 → callback dY = .array [A.rows, 1] mem := by
  refine ⟨idColumn (tableLookup table default (List.ofFn fun i : Fin A.rows => ofInt (A.at i c))),
    remapBack (κ := κ) mem (.ints2 A), ?_, fun dY h1 h2 => by simp [remapBack, h1, h2]⟩
  simp only [remapV2, remapKeys_ok (KeysOf.column (ofInt := ofInt) A c hc), bind, Except.bind, pure, Except.pure]

/-- **C86** (`strings2arrays`): one array for every sequence and one row for every word, in the same order; a row is the
sign-extended hash of its word, between 0 and 2^64. -/
theorem C86_strings2arrays (hash : κ → BitVec 32) (Xs : List (List κ)) :
    (strings2arrays hash Xs).1.length = Xs.length ∧
    ∀ (b : ℕ) (hb : b < Xs.length), ∃ A, (strings2arrays hash Xs).1[b]? = some A ∧ A.rows = Xs[b].length ∧ A.cols = 1 ∧
      ∀ (i : ℕ) (hi : i < Xs[b].length),
        A.at i 0 = (if (hash Xs[b][i]).toInt < 0 then (hash Xs[b][i]).toInt + 2 ^ 64 else (hash Xs[b][i]).toInt) ∧
        0 ≤ A.at i 0 ∧ A.at i 0 < 2 ^ 64 := by
  refine ⟨by simp [strings2arrays], fun b hb => ⟨idColumn (Xs[b].map fun w => (hash w).toInt % 2 ^ 64),
    by simp [strings2arrays, hb], by simp [idColumn], rfl, fun i hi => ?_⟩⟩
  have h1 := BitVec.le_two_mul_toInt (x := hash Xs[b][i])
  have h2 := BitVec.two_mul_toInt_lt (x := hash Xs[b][i])
  have e : (idColumn (Xs[b].map fun w => (hash w).toInt % 2 ^ 64)).at i 0 = (hash Xs[b][i]).toInt % 2 ^ 64 := by
    simp [Mat.at, idColumn, hi]
  rw [e]
  refine ⟨?_, Int.emod_nonneg _ (by norm_num), Int.emod_lt_of_pos _ (by norm_num)⟩
  split_ifs with h
  · omega
  · omega

/-- Keys 7 and 9 with a table for 7 only, in the last column of an array. -/
example : ∃ Y callback, remapV2 id (some [(7, 3)]) 1 (some (-1)) (fun _ => 0)
    (.ints2 ⟨2, 2, fun i => if i = 1 then 7 else 9⟩) = .ok (Y, callback) ∧
    IsColumn (κ := ℤ) [(7, 3)] 1 [7, 9] Y ∧ Y.at 0 0 = 3 ∧ Y.at 1 0 = 1 := by
  have h := (C86_remap_v2_partial (KeysOf.negative (ofInt := id) ⟨2, 2, fun i => if i = 1 then 7 else 9⟩ 1 (by norm_num))
    [(7, 3)] 1 (fun _ => 0)).1
  obtain ⟨Y, cb, h1, h2⟩ := h
  have e : (List.ofFn fun i : Fin 2 => id ((⟨2, 2, fun i => if i = 1 then 7 else 9⟩ : Mat ℤ).at i 1)) = [7, 9] := by decide
  have h3 : IsColumn (κ := ℤ) [(7, 3)] 1 [7, 9] Y := e ▸ h2
  exact ⟨Y, cb, h1, h3, (h3.2.2 0 (by simp)).1 3 (by decide), (h3.2.2 1 (by simp)).2 (by decide)⟩

end Thinc.RemapIds
