import Verif.Props.FloatText4
import Verif.Props.Compare2

/-!
# C124, C125: concrete files
-/

set_option linter.unusedSectionVars false

namespace Ranx
open FText Files Jsn Special Rep
open Py (Str)

/-- ids with quotes, backslashes, newlines and characters beyond ASCII; the scores `0.5`, `0.1`, infinity -/
def exJsonRun : Store Str Str (X ℚ) :=
  ⟨[("q\"1".toList, [("dé\n".toList, .fin (1 / 2)), ("a\\b".toList, .fin (rd (1 / 10)))]),
    ("q2".toList, [("∞".toList, .pinf)])], true⟩

/-- the file of this run; the infinite score is `null` -/
example : runText (ratNum .orjson) exJsonRun.data =
    ("{\n  \"q\\\"1\": {\n    \"dé\\n\": 0.5,\n    \"a\\\\b\": 0.1\n  },\n  \"q2\": {\n    \"∞\": null\n  }\n}").toList := by
  decide +kernel

/-- the same with `json.dumps`: characters beyond ASCII are escaped -/
example : dumps (ratNum .python) true 0 0 (.arr [.str "é😀".toList, .num (1 / 4), .null]) =
    "[\n\"\\u00e9\\ud83d\\ude00\",\n0.25,\nnull\n]".toList := by
  decide +kernel

theorem exJsonRun_reachable : Reachable (ArgSort.stable (X ℚ)) exJsonRun := by
  have h : Store.ofDict (ArgSort.stable (X ℚ)) exJsonRun.data = .ok exJsonRun := by decide +kernel
  exact .ofDict _ _ (by unfold Dict.NodupKeys; decide +kernel) (by unfold Dict.NodupKeys; decide +kernel) h

/-- the hypotheses of `C124_run` and `C124_inf_refuted` are met -/
example : ∃ s', runOfJson (ratNum .orjson) (ArgSort.stable (X ℚ)) (runText (ratNum .orjson)
      (exJsonRun.ensureSorted (ArgSort.stable (X ℚ))).data) = .ok s' ∧
    (Spec.content s').read "q\"1".toList "a\\b".toList = some (.fin (rd (1 / 10))) ∧
    (Spec.content s').read "q2".toList "∞".toList = some .nan := by
  obtain ⟨s', h1, -, h2, -⟩ := C124_run (ratNum .orjson) (ArgSort.stable _) (ArgSort.stable _) exJsonRun
    exJsonRun_reachable (by decide +kernel)
  refine ⟨s', h1, ?_, ?_⟩
  · rw [h2]; decide +kernel
  · rw [h2]; decide +kernel

/-- a file of qrels, as written and with other white space and escapes -/
example : qrelsText intNum [("q1".toList, [("d1".toList, 1), ("d2".toList, -2)])] =
      "{\n  \"q1\": {\n    \"d1\": 1,\n    \"d2\": -2\n  }\n}".toList ∧
    (nestedOf intNum relOfJson "{\"q1\":{\"\\u0064\\u0031\":1 , \"d2\" :-2}}\n".toList).toOption =
      some [("q1".toList, [("d1".toList, 1), ("d2".toList, -2)])] ∧
    (nestedOf intNum relOfJson "{\"q1\": {\"d1\": 1,}}".toList).toOption = none := by decide +kernel

/-- `print_results` -/
example : ∃ r, exCompare "student" [exBm25, exAnon] = .ok r ∧ resultsText reportNum r =
    ("{\n    \"bm25\": {\n        \"precision@2\": 0.25,\n        \"recall@2\": 0.25\n    },\n" ++
      "    \"run_2\": {\n        \"precision@2\": 0.75,\n        \"recall@2\": 1.0\n    }\n}").toList := by
  have h : ((exCompare "student" [exBm25, exAnon]).map fun r => r.results) = .ok
      [("bm25".toList, [("precision@2".toList, .val (1 / 4)), ("recall@2".toList, .val (1 / 4))]),
        ("run_2".toList, [("precision@2".toList, .val (3 / 4)), ("recall@2".toList, .val 1)])] := by decide +kernel
  cases hr : exCompare "student" [exBm25, exAnon] with
  | error e => rw [hr] at h; cases h
  | ok r =>
    rw [hr, Except.map, Except.ok.injEq] at h
    refine ⟨r, rfl, ?_⟩
    unfold resultsText
    rw [h]
    decide +kernel

/-- reports are written, and the hypotheses of `C125_json_partial` are met: no NaN -/
example : ((exCompare "student" [exBm25, exAnon]).map fun r => (r.modelNames, (reportText reportNum r).toBool,
      r.results.all (fun p => p.2.all (fun e => e.2 != .nan)),
      r.modelNames.all (fun a => r.modelNames.all (fun b => r.metrics.all (fun m => a == b ||
        (r.comparison a b m).toOption.any (fun res => res.p != .nan)))))) =
    .ok (["bm25".toList, "run_2".toList], true, true, true) := by decide +kernel

/-- two models with equal scores: Student's test gives NaN, the hypotheses of `C125_nan_refuted` are met, and the file is
not JSON -/
example : ∃ r text, exCompare "student" [exBm25, ⟨some "copy".toList, exRunObj⟩] = .ok r ∧
    reportText reportNum r = .ok text ∧ loads reportNum false text = none := by
  have h : ((exCompare "student" [exBm25, ⟨some "copy".toList, exRunObj⟩]).map fun r => (r.modelNames, r.metrics,
      (reportText reportNum r).toBool, (r.comparison "bm25".toList "copy".toList "recall@2".toList).map (fun x => x.p))) =
      .ok (["bm25".toList, "copy".toList], ["precision@2".toList, "recall@2".toList], true, .ok .nan) := by
    decide +kernel
  cases hr : exCompare "student" [exBm25, ⟨some "copy".toList, exRunObj⟩] with
  | error e => rw [hr] at h; cases h
  | ok r =>
    rw [hr, Except.map, Except.ok.injEq, Prod.mk.injEq, Prod.mk.injEq, Prod.mk.injEq] at h
    obtain ⟨h1, h2, h3, h4⟩ := h
    cases ht : reportText reportNum r with
    | error e => rw [ht] at h3; cases h3
    | ok text =>
      cases hc : r.comparison "bm25".toList "copy".toList "recall@2".toList with
      | error e => rw [hc] at h4; cases h4
      | ok res =>
        rw [hc, Except.map, Except.ok.injEq] at h4
        exact ⟨r, text, rfl, ht, (C125_nan_refuted reportNum r text ht _ _ _ (by rw [h1]; decide) (by rw [h1]; decide)
          (by decide) (by rw [h2]; decide) res hc h4).2⟩

end Ranx
