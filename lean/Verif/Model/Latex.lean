import Verif.Model.Report

/-!
# The text of `Report.to_latex` (`ranx/data_structures/report.py`)

`Report.latex` (in `Model/Report`) computes the letters, names and cells; here they are written out.
`str(self.max_p)` is a parameter.
-/

namespace Ranx.Py

/-- `s.replace(c, new)` for a one-character string `c` -/
def replaceChar (c : Char) (new : Str) (s : Str) : Str := s.flatMap (fun x => if x = c then new else [x])

/-- `s.replace(old, new)` for a non-empty `old`: occurrences are looked for from the left and do not overlap;
the next `skip` characters belong to an occurrence already replaced -/
def replaceSub (old new : Str) : Nat → Str → Str
  | _, [] => []
  | skip + 1, _ :: t => replaceSub old new skip t
  | 0, c :: t =>
    if old.isPrefixOf (c :: t) then new ++ replaceSub old new (old.length - 1) t
    else c :: replaceSub old new 0 t

/-- `sep.join(l)` -/
def joinWith (sep : Str) : List Str → Str
  | [] => []
  | [x] => x
  | x :: t => x ++ (sep ++ joinWith sep t)

end Ranx.Py

namespace Ranx.Rep
open Py Eval

/-- report.py:34-38 `stat_test_labels` -/
def statTestLabels : Dict Str Str :=
  [("fisher".toList, "Fisher's randomization test".toList), ("student".toList, "paired Student's t-test".toList),
    ("tukey".toList, "Tukey's HSD test".toList)]

/-- report.py:127-128 `get_stat_test_label` -/
def statTestLabel (t : Str) : Except Err Str :=
  match statTestLabels.get? t with
  | some s => .ok s
  | none => .error .keyError

/-- report.py:198 `preamble` -/
def latexPreamble : Str :=
  "========================\n% Add in preamble\n\\usepackage{graphicx}\n\\usepackage{booktabs}\n========================\n\n".toList

/-- report.py:200-204: the caption up to the name of the test -/
def latexCaption : Str :=
  ("% To change the table size, act on the resizebox argument `0.8`.\n" ++
    "\\begin{table*}[ht]\n\\centering\n\\caption{\nOverall effectiveness of the models.\n" ++
    "The best results are highlighted in boldface.\nSuperscripts denote significant differences in ").toList

/-- report.py:200-217 `table_prefix`; `labels` are the metric labels -/
def latexPrefix (strP test : Str) (labels : List Str) : Str :=
  latexCaption ++ test ++ " with $p \\le ".toList ++ strP ++
    "$.\n}\n\\resizebox{0.8\\textwidth}{!}{".toList ++ "\n\\begin{tabular}{c|l".toList ++
    (List.replicate labels.length "|c".toList).flatten ++ "}".toList ++ "\n\\toprule".toList ++
    "\n\\textbf{\\#}".toList ++ "\n& \\textbf{Model}".toList ++
    labels.flatMap (fun l => "\n& \\textbf{".toList ++ l ++ "}".toList) ++ " \\\\ \n\\midrule".toList

/-- report.py:226-234: the text of a cell -/
def cellText (c : Cell) : Str :=
  (if c.bold then "\\textbf{".toList ++ c.score ++ "}".toList else c.score) ++ "$^{".toList ++ c.superscript ++
    "}$\\hphantom{$^{".toList ++ c.phantoms ++ "}$} &".toList

/-- report.py:236 `scores[-1] = scores[-1][:-1]` -/
def dropLastAmp : List Str → List Str
  | [] => []
  | [x] => [x.dropLast]
  | x :: t => x :: dropLastAmp t

/-- report.py:222-239: the text of a row -/
def rowText (row : Char × Str × List Cell) : Str :=
  [row.1] ++ " &\n".toList ++ row.2.1 ++ " &\n".toList ++
    joinWith "\n".toList (dropLastAmp (row.2.2.map cellText)) ++ "\\\\".toList

/-- report.py:241-243 `table_content` -/
def latexContent (rows : List (Char × Str × List Cell)) : Str :=
  replaceSub "$^{}$".toList [] 0 (replaceChar '_' "\\_".toList (joinWith "\n".toList (rows.map rowText)))

/-- report.py:245-247 `table_suffix` -/
def latexSuffix : Str := "\\bottomrule\n\\end{tabular}\n}\n\\label{tab:results}\n\\end{table*}".toList

section
variable {α : Type*} [Field α] [LinearOrder α]

/-- report.py:181-251 `to_latex` (the best scores, computed first, can only fail where `latex` fails; which exception
is raised when several are possible is not modelled) -/
def Report.toLatex (r : Report α) (fm : Fmt α) (strP : Str) : Except Err Str :=
  match statTestLabel r.statTest with
  | .error e => .error e
  | .ok test =>
    match collect (r.metrics.map getMetricLabel) with
    | .error e => .error e
    | .ok labels =>
      match r.latex fm with
      | .error e => .error e
      | .ok rows =>
        .ok (latexPreamble ++ "\n".toList ++ latexPrefix strP test labels ++ "\n".toList ++ latexContent rows ++
          "\n".toList ++ latexSuffix)

end
end Ranx.Rep
