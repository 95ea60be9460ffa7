import Verif.Model.Frames
import Verif.Props.Dataframe
import Mathlib.Data.List.Perm.Subperm

/-!
# Property C117: data frames with named, typed columns
-/

set_option linter.unusedSectionVars false

namespace Ranx
open Dict Py Frm

variable {α : Type*} [LE α] [Neg α]

/-- Specification: the column of the frame named `c` is a text column with the values `l`. -/
def Spec.TextColumn (df : Frame α) (c : Str) (l : List Str) : Prop := df.get? c = some (.object l)
/-- Specification: it is a float column. -/
def Spec.FloatColumn (df : Frame α) (c : Str) (l : List α) : Prop := df.get? c = some (.float64 l)
/-- Specification: it is an integer column. -/
def Spec.IntColumn (df : Frame α) (c : Str) (l : List Int) : Prop := df.get? c = some (.int64 l)

/-- Specification: `res` is the object holding exactly the rows (the last row of a query and doc wins); no rows are
a ValueError. -/
def Spec.BuiltFrom {κ δ β : Type*} [LinearOrder κ] [DecidableEq δ] [LE β] [Neg β] (S : ArgSort β)
    (rows : List (κ × δ × β)) (res : Except Err (Store κ δ β)) : Prop :=
  (rows = [] → res = .error .valueError) ∧
  (rows ≠ [] → ∃ s, res = .ok s ∧ Reachable S s ∧ (∀ q, q ∈ s.data.keys ↔ ∃ r ∈ rows, r.1 = q) ∧
    ∀ q d, (Spec.content s).read q d = Spec.lastRow rows q d)

/-- **C117** (`from_df`): whatever the columns are called and whatever other columns there are, the object holds the
rows formed by the three named columns. -/
theorem C117_from_df (S : ArgSort α) (SI : ArgSort Int) (df : Frame α) (qCol dCol sCol : Str) (qs ds : List Str)
    (hq : Spec.TextColumn df qCol qs) (hd : Spec.TextColumn df dCol ds) :
    (∀ vs, Spec.FloatColumn df sCol vs →
      Spec.BuiltFrom S (qs.zip (ds.zip vs)) (runFromDf S df qCol dCol sCol)) ∧
    (∀ vs, Spec.IntColumn df sCol vs →
      Spec.BuiltFrom SI (qs.zip (ds.zip vs)) (qrelsFromDf SI df qCol dCol sCol)) := by
  unfold Spec.TextColumn at hq hd
  constructor
  · intro vs hv
    unfold Spec.FloatColumn at hv
    have : runFromDf S df qCol dCol sCol = Store.fromDataframe S (qs.zip (ds.zip vs)) := by
      unfold runFromDf
      rw [hq, hd, hv]
      rfl
    rw [this]
    exact C08_from_df (S := S) (qs.zip (ds.zip vs))
  · intro vs hv
    unfold Spec.IntColumn at hv
    have : qrelsFromDf SI df qCol dCol sCol = Store.fromDataframe SI (qs.zip (ds.zip vs)) := by
      unfold qrelsFromDf
      rw [hq, hd, hv]
      rfl
    rw [this]
    exact C08_from_df (S := SI) (qs.zip (ds.zip vs))

/-- **C117** (rejection): without the three columns, or when the query or doc column is not text, or the scores of a
run are not floats (of qrels: not integers), nothing is built. -/
theorem C117_rejected (S : ArgSort α) (SI : ArgSort Int) (df : Frame α) (qCol dCol sCol : Str) :
    ((∃ s, runFromDf S df qCol dCol sCol = .ok s) →
      ∃ qs ds vs, Spec.TextColumn df qCol qs ∧ Spec.TextColumn df dCol ds ∧ Spec.FloatColumn df sCol vs) ∧
    ((∃ s, qrelsFromDf SI df qCol dCol sCol = .ok s) →
      ∃ qs ds vs, Spec.TextColumn df qCol qs ∧ Spec.TextColumn df dCol ds ∧ Spec.IntColumn df sCol vs) ∧
    (qCol ∉ df.keys → runFromDf S df qCol dCol sCol = .error .keyError ∧
      qrelsFromDf SI df qCol dCol sCol = .error .keyError) ∧
    (∀ qs ds, Spec.TextColumn df qCol qs → Spec.TextColumn df dCol ds → sCol ∈ df.keys →
      (∀ vs, ¬Spec.FloatColumn df sCol vs) → runFromDf S df qCol dCol sCol = .error .assertionError) ∧
    (∀ qs ds, Spec.TextColumn df qCol qs → Spec.TextColumn df dCol ds → sCol ∈ df.keys →
      (∀ vs, ¬Spec.IntColumn df sCol vs) → qrelsFromDf SI df qCol dCol sCol = .error .assertionError) := by
  unfold Spec.TextColumn Spec.FloatColumn Spec.IntColumn
  refine ⟨?_, ?_, ?_, ?_, ?_⟩
  · rintro ⟨s, h⟩
    unfold runFromDf at h
    rcases h1 : df.get? qCol with _ | (qs | _ | _) <;> rw [h1] at h <;> try cases h
    rcases h2 : df.get? dCol with _ | (ds | _ | _) <;> simp only [h2] at h <;> try cases h
    rcases h3 : df.get? sCol with _ | (_ | vs | _) <;> simp only [h3] at h <;> try cases h
    exact ⟨qs, ds, vs, rfl, rfl, rfl⟩
  · rintro ⟨s, h⟩
    unfold qrelsFromDf at h
    rcases h1 : df.get? qCol with _ | (qs | _ | _) <;> rw [h1] at h <;> try cases h
    rcases h2 : df.get? dCol with _ | (ds | _ | _) <;> simp only [h2] at h <;> try cases h
    rcases h3 : df.get? sCol with _ | (_ | _ | vs) <;> simp only [h3] at h <;> try cases h
    exact ⟨qs, ds, vs, rfl, rfl, rfl⟩
  · intro h
    unfold runFromDf qrelsFromDf
    rw [get?_eq_none.2 h]
    exact ⟨rfl, rfl⟩
  · intro qs ds h1 h2 h3 h4
    unfold runFromDf
    rw [h1, h2]
    rcases h5 : df.get? sCol with _ | (_ | vs | _)
    · exact absurd h3 (get?_eq_none.1 h5)
    · rfl
    · exact absurd h5 (h4 vs)
    · rfl
  · intro qs ds h1 h2 h3 h4
    unfold qrelsFromDf
    rw [h1, h2]
    rcases h5 : df.get? sCol with _ | (_ | _ | vs)
    · exact absurd h3 (get?_eq_none.1 h5)
    · rfl
    · rfl
    · exact absurd h5 (h4 vs)

/-- **C117** (other columns): two frames with the same three columns give the same result. -/
theorem C117_other_columns (S : ArgSort α) (SI : ArgSort Int) (df df' : Frame α) (qCol dCol sCol : Str)
    (h : ∀ c ∈ [qCol, dCol, sCol], df.get? c = df'.get? c) :
    runFromDf S df qCol dCol sCol = runFromDf S df' qCol dCol sCol ∧
    qrelsFromDf SI df qCol dCol sCol = qrelsFromDf SI df' qCol dCol sCol := by
  unfold runFromDf qrelsFromDf
  rw [h qCol (by simp), h dCol (by simp), h sCol (by simp)]
  exact ⟨rfl, rfl⟩

theorem zip_rows {β : Type*} (rows : List (Str × Str × β)) :
    (rows.map (fun r => r.1)).zip ((rows.map (fun r => r.2.1)).zip (rows.map (fun r => r.2.2))) = rows := by
  induction rows with
  | nil => rfl
  | cons r t ih => simp only [List.map_cons, List.zip_cons_cons, ih]

theorem toDataframe_ne {β : Type*} (s : Store Str Str β) (h : ∃ p ∈ s.data, p.2 ≠ []) : s.toDataframe ≠ [] := by
  obtain ⟨p, hp, hne⟩ := h
  intro h
  unfold Store.toDataframe at h
  rw [List.flatMap_eq_nil_iff] at h
  have := h p hp
  rw [List.map_eq_nil_iff] at this
  exact hne this

theorem columnsOf_q {β : Type*} (mk : List β → Column α) (rows : List (Str × Str × β)) :
    Spec.TextColumn (columnsOf mk rows) "q_id".toList (rows.map (fun r => r.1)) := rfl

theorem columnsOf_d {β : Type*} (mk : List β → Column α) (rows : List (Str × Str × β)) :
    Spec.TextColumn (columnsOf mk rows) "doc_id".toList (rows.map (fun r => r.2.1)) := by
  unfold Spec.TextColumn columnsOf
  have n1 : ¬ "q_id".toList = "doc_id".toList := by decide
  rw [get?_cons, if_neg n1, get?_cons, if_pos rfl]

theorem columnsOf_s {β : Type*} (mk : List β → Column α) (rows : List (Str × Str × β)) :
    (columnsOf mk rows).get? "score".toList =
      some (if rows.isEmpty then .object [] else mk (rows.map (fun r => r.2.2))) := by
  unfold columnsOf
  have n1 : ¬ "q_id".toList = "score".toList := by decide
  have n2 : ¬ "doc_id".toList = "score".toList := by decide
  rw [get?_cons, if_neg n1, get?_cons, if_neg n2, get?_cons, if_pos rfl]

theorem isEmpty_of_ne {β : Type*} {l : List β} (h : l ≠ []) : l.isEmpty = false := by
  cases l with
  | nil => exact absurd rfl h
  | cons a t => rfl

/-- **C117** (`to_dataframe`): the frame of an object with at least one doc has the columns `q_id`, `doc_id`, `score`
with one row per doc, and `from_df` with its default column names reads it; the frame of an object without docs is
rejected. -/
theorem C117_to_dataframe (S : ArgSort α) (SI : ArgSort Int) (s : Store Str Str α) (t : Store Str Str Int) :
    ((∃ p ∈ s.data, p.2 ≠ []) →
      Spec.BuiltFrom S s.toDataframe
        (runFromDf S (runToDf s) "q_id".toList "doc_id".toList "score".toList)) ∧
    ((∃ p ∈ t.data, p.2 ≠ []) →
      Spec.BuiltFrom SI t.toDataframe
        (qrelsFromDf SI (qrelsToDf (α := α) t) "q_id".toList "doc_id".toList "score".toList)) ∧
    ((∀ p ∈ s.data, p.2 = []) →
      runFromDf S (runToDf s) "q_id".toList "doc_id".toList "score".toList = .error .assertionError) := by
  refine ⟨?_, ?_, ?_⟩
  · intro h
    have := (C117_from_df S SI (runToDf s) _ _ "score".toList _ _ (columnsOf_q _ _) (columnsOf_d _ _)).1
      (s.toDataframe.map (fun r => r.2.2)) (by
        unfold Spec.FloatColumn runToDf
        rw [columnsOf_s, isEmpty_of_ne (toDataframe_ne s h)]; rfl)
    rwa [zip_rows] at this
  · intro h
    have := (C117_from_df S SI (qrelsToDf (α := α) t) _ _ "score".toList _ _ (columnsOf_q _ _) (columnsOf_d _ _)).2
      (t.toDataframe.map (fun r => r.2.2)) (by
        unfold Spec.IntColumn qrelsToDf
        rw [columnsOf_s, isEmpty_of_ne (toDataframe_ne t h)]; rfl)
    rwa [zip_rows] at this
  · intro h
    have he : s.toDataframe = [] := by
      unfold Store.toDataframe
      rw [List.flatMap_eq_nil_iff]
      intro p hp
      rw [h p hp]; rfl
    unfold runFromDf runToDf
    have h1 := columnsOf_q (Column.float64 (α := α)) s.toDataframe
    have h2 := columnsOf_d (Column.float64 (α := α)) s.toDataframe
    unfold Spec.TextColumn at h1 h2
    rw [h1, h2, columnsOf_s, he]
    rfl

/-- **C117** (`from_parquet` without `pd_kwargs`): it is `from_df` of the frame in the file. -/
theorem C117_from_parquet_partial (S : ArgSort α) (SI : ArgSort Int)
    (read : Dict Str Value → Except Err (Frame α)) (kw : Option (Dict Str Value)) (hkw : kw = none ∨ kw = some [])
    (qCol dCol sCol : Str) (df : Frame α) (h : read [] = .ok df) :
    runFromParquet S read kw qCol dCol sCol = runFromDf S df qCol dCol sCol ∧
    qrelsFromParquet SI read kw qCol dCol sCol = qrelsFromDf SI df qCol dCol sCol := by
  have hr : readWith read kw = .ok df := by
    rw [← h]
    rcases hkw with rfl | rfl <;> rfl
  unfold runFromParquet qrelsFromParquet
  rw [hr]
  exact ⟨rfl, rfl⟩

/-- **C117** (refuted): the documentation says `pd_kwargs` is passed on to `pandas.read_parquet`, but whatever
parameters of it are named in a non-empty `pd_kwargs`, whatever their values and whatever the file, the call fails:
even asking for the default engine does. -/
theorem C117_pd_kwargs_refuted (S : ArgSort α) (SI : ArgSort Int) (read : Dict Str Value → Except Err (Frame α))
    (kw : Dict Str Value) (hne : kw ≠ []) (hnd : NodupKeys kw) (hparams : ∀ k ∈ kw.keys, k ∈ parquetParams)
    (qCol dCol sCol : Str) :
    runFromParquet S read (some kw) qCol dCol sCol = .error .valueError ∧
    qrelsFromParquet SI read (some kw) qCol dCol sCol = .error .valueError := by
  have hr : readWith read (some kw) = .error .valueError := by
    unfold readWith bindPositional
    have hlen : ((some kw).getD []).keys.length ≤ parquetParams.length :=
      (List.subperm_of_subset hnd hparams).length_le
    rw [if_pos (by rw [List.length_map]; exact hlen)]
    cases kw with
    | nil => exact absurd rfl hne
    | cons p t =>
      have hp : p.1 ∈ parquetParams := hparams p.1 (by simp [Dict.keys])
      have hnot : ∀ k ∈ parquetParams, ¬ (k = "auto".toList ∨ k = "pyarrow".toList ∨ k = "fastparquet".toList) := by
        decide +kernel
      have hbound : Dict.get? (parquetParams.zip ((Dict.keys (p :: t)).map Value.text)) "engine".toList =
          some (.text p.1) := rfl
      change readParquet read (parquetParams.zip ((Dict.keys (p :: t)).map Value.text)) = _
      unfold readParquet
      rw [hbound]
      exact if_neg (hnot _ hp)
  unfold runFromParquet qrelsFromParquet
  rw [hr]
  exact ⟨rfl, rfl⟩

/-- Non-vacuity: a frame with renamed columns and one more, a frame with integer scores, `pd_kwargs={"engine": …}`. -/
def exFrame : Frame Int :=
  [("query".toList, .object ["q1".toList, "q1".toList]), ("lang".toList, .object ["en".toList, "en".toList]),
    ("doc".toList, .object ["d1".toList, "d2".toList]), ("s".toList, .float64 [3, 5])]

example : Spec.TextColumn exFrame "query".toList ["q1".toList, "q1".toList] ∧
    Spec.TextColumn exFrame "doc".toList ["d1".toList, "d2".toList] ∧ Spec.FloatColumn exFrame "s".toList [3, 5] := by
  unfold Spec.TextColumn Spec.FloatColumn exFrame
  refine ⟨rfl, ?_, ?_⟩
  · rw [get?_cons, if_neg (by decide +kernel), get?_cons, if_neg (by decide +kernel), get?_cons, if_pos rfl]
  · rw [get?_cons, if_neg (by decide +kernel), get?_cons, if_neg (by decide +kernel), get?_cons,
      if_neg (by decide +kernel), get?_cons, if_pos rfl]

example : (match runFromDf (ArgSort.stable Int) exFrame "query".toList "doc".toList "s".toList with
    | .ok s => s.data
    | .error _ => []) = [("q1".toList, [("d2".toList, 5), ("d1".toList, 3)])] := by decide +kernel

example : NodupKeys [("engine".toList, Value.text "auto".toList)] ∧
    (∀ k ∈ Dict.keys [("engine".toList, Value.text "auto".toList)], k ∈ parquetParams) := by
  constructor
  · unfold NodupKeys; decide
  · decide +kernel

end Ranx
