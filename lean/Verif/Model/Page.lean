/-
Model of the pages of the web server: `web/src/html.rs:74-98` and the templates in `web/templates`, rendered by `sailfish` 0.8.3, which copies the text
of a template, writes the value of `<%= x %>` with five characters escaped, and the value of `<%- x %>` as it is.

Where a tag contains a value, the text of the template is cut around that tag; the order and the text are those of the template.
-/
import Verif.Model.Html
import Verif.Model.Query
import Verif.Model.Startup

namespace Swc

/-- `sailfish` 0.8.3, `runtime::escape`: one character of `<%= x %>`. -/
def escapeChar (c : Char) : Str :=
  if c = '"' then str% "&quot;"
  else if c = '&' then str% "&amp;"
  else if c = '\'' then str% "&#039;"
  else if c = '<' then str% "&lt;"
  else if c = '>' then str% "&gt;"
  else [c]

/-- `<%= s %>`. -/
def escapeHtml (s : Str) : Str := s.flatMap escapeChar

/-- `Display` of an `i128`. -/
def intToStr (z : ℤ) : Str := if z < 0 then '-' :: natToStr z.natAbs else natToStr z.natAbs

/-- `{:?}` of a dimension (derived `Debug`, `core/src/lib.rs:452-455`). -/
def Dimension.debugName : Dimension → Str
  | .time => str% "Time"
  | .proof => str% "Proof"

/-- `web/src/html.rs:90-94` `readme_link`.  (`to_lowercase` of ASCII names.) -/
def readmeLink (name : Str) : Str :=
  name ++ str% " <a href=\"https://github.com/ggwpez/substrate-weight-compare/#" ++ (asciiLower name).map (fun c => if c = ' ' then '-' else c)
    ++ str% "\" target=\"_blank\"><sup><small>HELP</small></sup></a>"

/-! ### The heads -/

/-- `web/templates/header.stpl:1-20`: the part of the heads that all pages include. -/
def header : Str :=
  str% "<title>SWC-Web</title>\n\n<meta charset=\"UTF-8\">\n<meta name=\"viewport\" content=\"width=device-width, initial-scale=1.0\" />\n<meta name=\"format-detection\" content=\"telephone=no\">\n<link rel=\"icon\" type=\"image/x-icon\" href=\"favicon.ico\">\n\n<!-- Font -->\n<link rel=\"preconnect\" href=\"https://fonts.googleapis.com\">\n<link rel=\"preconnect\" href=\"https://fonts.gstatic.com\" crossorigin>\n<link href=\"https://fonts.googleapis.com/css2?family=Ubuntu:wght@300&display=swap\" rel=\"stylesheet\">\n\n<!-- JQuery -->\n<script type=\"text/javascript\" charset=\"utf8\" src=\"https://cdnjs.cloudflare.com/ajax/libs/jquery/3.6.0/jquery.min.js\"></script>\n\n<!-- Bootstrap -->\n<link rel=\"stylesheet\" type=\"text/css\" href=\"https://cdnjs.cloudflare.com/ajax/libs/twitter-bootstrap/5.1.3/css/bootstrap.min.css\"/>\n<script type=\"text/javascript\" src=\"https://cdnjs.cloudflare.com/ajax/libs/twitter-bootstrap/5.1.3/js/bootstrap.bundle.min.js\"></script>\n\n<script type=\"module\" src=\"/static/darkmode.js\"></script>\n"

/-- `web/templates/compare.stpl:1-5`: text of the template. -/
def pageHeadOpen : Str :=
  str% "<!DOCTYPE html>\n\n<html>\n\t<head>\n\t\t"

/-- `web/templates/compare.stpl:5-15`: text of the template. -/
def pageHeadLinks : Str :=
  str% "\n\n\t\t<!-- Data tables -->\n\t\t<link rel=\"stylesheet\" type=\"text/css\" href=\"https://cdn.datatables.net/v/bs5/jq-3.6.0/jszip-2.5.0/dt-1.12.1/b-2.2.3/b-colvis-2.2.3/b-html5-2.2.3/b-print-2.2.3/r-2.3.0/sl-1.4.0/datatables.min.css\"/>\n\t\t<script type=\"text/javascript\" src=\"https://cdnjs.cloudflare.com/ajax/libs/pdfmake/0.1.36/pdfmake.min.js\"></script>\n\t\t<script type=\"text/javascript\" src=\"https://cdnjs.cloudflare.com/ajax/libs/pdfmake/0.1.36/vfs_fonts.js\"></script>\n\t\t<script type=\"text/javascript\" src=\"https://cdn.datatables.net/v/bs5/jq-3.6.0/jszip-2.5.0/dt-1.12.1/b-2.2.3/b-colvis-2.2.3/b-html5-2.2.3/b-print-2.2.3/r-2.3.0/sl-1.4.0/datatables.min.js\"></script>\n\n\t\t<link rel=\"stylesheet\" href=\"/static/table.css\">\n\t\t<script type=\"module\" src=\"/static/table.js\"></script>\n\t\t<link rel=\"stylesheet\" href=\"/static/loading_anim.css\">\n\t"

/-- `web/templates/compare.stpl:1-15`. -/
def pageHead : Str := pageHeadOpen ++ header ++ pageHeadLinks

/-- `web/templates/error.stpl:1-7`: text of the template. -/
def errorHeadOpen : Str :=
  str% "<html>\n<head>\n\t<title>\n\t\tSWC-Web: 500\n\t</title>\n\n    "

/-- `web/templates/error.stpl:7-7`: text of the template. -/
def errorHeadLinks : Str :=
  str% "\n"

/-- `web/templates/error.stpl:1-7`. -/
def errorHead : Str := errorHeadOpen ++ header ++ errorHeadLinks

/-- `web/templates/root.stpl:1-4`: text of the template. -/
def rootHeadOpen : Str :=
  str% "<html>\n\n<head>\n\t"

/-- `web/templates/root.stpl:4-13`: text of the template. -/
def rootHeadLinks : Str :=
  str% "\n\n\t<!-- Dropdown autocomplete input box -->\n\t<link href=\"https://cdn.jsdelivr.net/npm/select2@4.1.0-rc.0/dist/css/select2.min.css\" rel=\"stylesheet\" />\n\t<script type=\"module\" src=\"https://cdn.jsdelivr.net/npm/select2@4.1.0-rc.0/dist/js/select2.min.js\"></script>\n\n\t<script type=\"module\" src=\"/static/root.js\"></script>\n\t<link rel=\"stylesheet\" href=\"/static/root.css\">\n\n\t<link href=\"https://cdnjs.cloudflare.com/ajax/libs/font-awesome/4.0.3/css/font-awesome.css\" rel=\"stylesheet\" />\n"

/-- `web/templates/root.stpl:1-13`. -/
def rootHead : Str := rootHeadOpen ++ header ++ rootHeadLinks

/-- `web/templates/merge_requests.stpl:1-4`: text of the template. -/
def mrHeadOpen : Str :=
  str% "<html>\n\n<head>\n\t"

/-- `web/templates/merge_requests.stpl:4-22`: text of the template. -/
def mrHeadLinks : Str :=
  str% "\n\n\t<!-- Dropdown autocomplete input box -->\n\t<link href=\"https://cdn.jsdelivr.net/npm/select2@4.1.0-rc.0/dist/css/select2.min.css\" rel=\"stylesheet\" />\n\t<script type=\"module\" src=\"https://cdn.jsdelivr.net/npm/select2@4.1.0-rc.0/dist/js/select2.min.js\"></script>\n\n\t<!-- Data tables -->\n\t<link rel=\"stylesheet\" type=\"text/css\" href=\"https://cdn.datatables.net/v/bs5/jq-3.6.0/jszip-2.5.0/dt-1.12.1/b-2.2.3/b-colvis-2.2.3/b-html5-2.2.3/b-print-2.2.3/r-2.3.0/sl-1.4.0/datatables.min.css\"/>\n\t<script type=\"text/javascript\" src=\"https://cdnjs.cloudflare.com/ajax/libs/pdfmake/0.1.36/pdfmake.min.js\"></script>\n\t<script type=\"text/javascript\" src=\"https://cdnjs.cloudflare.com/ajax/libs/pdfmake/0.1.36/vfs_fonts.js\"></script>\n\t<script type=\"text/javascript\" src=\"https://cdn.datatables.net/v/bs5/jq-3.6.0/jszip-2.5.0/dt-1.12.1/b-2.2.3/b-colvis-2.2.3/b-html5-2.2.3/b-print-2.2.3/r-2.3.0/sl-1.4.0/datatables.min.js\"></script>\n\n\t<!-- Moment.js for relative time diff printing -->\n\t<script type=\"text/javascript\" src=\"https://cdnjs.cloudflare.com/ajax/libs/moment.js/2.29.4/moment.min.js\"></script>\n\n\t<script type=\"module\" src=\"/static/merge_requests.js\"></script>\n\t<script type=\"module\" src=\"/static/common.js\"></script>\n\t<link rel=\"stylesheet\" href=\"/static/merge_requests.css\">\n\t<link rel=\"stylesheet\" href=\"/static/loading_anim.css\">\n"

/-- `web/templates/merge_requests.stpl:1-22`. -/
def mrHead : Str := mrHeadOpen ++ header ++ mrHeadLinks

/-! ### The comparison page -/

/-- `web/templates/compare.stpl:16-28`: text of the template. -/
def pageStart : Str :=
  str% "</head>\n\t<body>\n\t<div class=\"form-check form-switch\">\n\t\t<label class=\"form-check-label\" for=\"lightSwitch\"> Dark Mode </label>\n\t\t<input class=\"form-check-input\" type=\"checkbox\" id=\"lightSwitch\" />\n\t</div>\n\n\t</br>\n\t<table id=\"config_table\">\n\t\t<tbody>\n\t\t\t<tr>\n\t\t\t\t<td>Version</td>\n\t\t\t\t<td><a href=\"https://github.com/ggwpez/substrate-weight-compare\" target=\"_blank\">"

/-- `web/templates/compare.stpl:1-28`. -/
def pageTop : Str := pageHead ++ pageStart

/-- `web/templates/compare.stpl:28-31`: text of the template. -/
def pageVersionEnd : Str :=
  str% "</a></td>\n\t\t\t</tr>\n\t\t\t<tr>\n\t\t\t\t<td>"

/-- `web/templates/compare.stpl:31-34`: text of the template. -/
def pageRepoOpen : Str :=
  str% "</td>\n\t\t\t\t<td>\n\t\t\t\t\t<select id=\"select_repo\">\n\t\t\t\t\t\t"

/-- `web/templates/compare.stpl:34,75,86`: text of the template. -/
def optSpace : Str :=
  str% "\n\t\t\t\t\t\t\t"

/-- `web/templates/compare.stpl:35,76,87`: text of the template. -/
def optEnd : Str :=
  str% "</option>\n\t\t\t\t\t\t"

/-- `web/templates/compare.stpl:36-42`: text of the template. -/
def pageRepoClose : Str :=
  str% "\n\t\t\t\t\t</select>\n\t\t\t\t</td>\n\t\t\t</tr>\n\t\t\t<tr>\n\t\t\t\t<td>Old Commit/Branch</td>\n\t\t\t\t<td>"

/-- `web/templates/compare.stpl:42-46`: text of the template. -/
def pageAfterOld : Str :=
  str% "</td>\n\t\t\t</tr>\n\t\t\t<tr>\n\t\t\t\t<td>New Commit/Branch</td>\n\t\t\t\t<td>"

/-- `web/templates/compare.stpl:46-49, 50-53, 54-57, 58-61, 94-97, 98-101`: text of the template. -/
def pageRowNext : Str :=
  str% "</td>\n\t\t\t</tr>\n\t\t\t<tr>\n\t\t\t\t<td>"

/-- `web/templates/compare.stpl:49-50, 53-54, 57-58, 93-94, 97-98`: text of the template. -/
def pageCellNext : Str :=
  str% "</td>\n\t\t\t\t<td>"

/-- `web/templates/compare.stpl:61-64`: text of the template. -/
def pageThresholdOpen : Str :=
  str% "</td>\n\t\t\t\t<td>\n\t\t\t\t<div class=\"input-group\">\n\t\t\t\t\t"

/-- `web/templates/compare.stpl:64-72`: text of the template. -/
def pageAfterThreshold : Str :=
  str% "\n\t\t\t\t\t<div class=\"input-group-append\">\n\t\t\t\t\t\t<span class=\"input-group-text\">%</span>\n\t\t\t\t\t</div>\n\t\t\t\t\t</div>\n\t\t\t\t</td>\n\t\t\t</tr>\n\t\t\t<tr>\n\t\t\t\t<td>"

/-- `web/templates/compare.stpl:72-75`: text of the template. -/
def pageUnitOpen : Str :=
  str% "</td>\n\t\t\t\t<td>\n\t\t\t\t\t<select id=\"select_unit\">\n\t\t\t\t\t\t"

/-- `web/templates/compare.stpl:77-82, 88-93`: text of the template. -/
def pageUnitClose : Str :=
  str% "\n\t\t\t\t\t</select>\n\t\t\t\t</td>\n\t\t\t</tr>\n\t\t\t<tr>\n\t\t\t\t<td>"

/-- `web/templates/compare.stpl:82-86`: text of the template. -/
def pageMethodOpen : Str :=
  str% "</td>\n\n\t\t\t\t<td>\n\t\t\t\t\t<select id=\"select_method\">\n\t\t\t\t\t\t"

/-- `web/templates/compare.stpl:101-102`: text of the template. -/
def pageHit : Str :=
  str% " hit</td>\n\t\t\t\t<td>"

/-- `web/templates/compare.stpl:102-108`: text of the template. -/
def pageControlsEnd : Str :=
  str% "</td>\n\t\t\t</tr>\n\t\t</tbody>\n\t</table>\n\t</br>\n\n\t"

/-- `web/templates/compare.stpl:108-111`: text of the template. -/
def pageErrorsOpen : Str :=
  str% "\n\t\t<p>\n\t\t\t<button class=\"btn btn-danger\" type=\"button\" data-bs-toggle=\"collapse\" data-bs-target=\"#collapseErrors\" aria-expanded=\"false\" aria-controls=\"collapseErrors\">\n\t\t\t\t"

/-- `web/templates/compare.stpl:111-116`: text of the template. -/
def pageErrorsLead : Str :=
  str% " errors generated\n\t\t\t</button>\n\t\t</p>\n\t\t<div class=\"collapse\" id=\"collapseErrors\">\n\t\t\t<div class=\"card card-body text-dark bg-light\">\n\t\t\t\t"

/-- `web/templates/compare.stpl:116-117, 131-132`: text of the template. -/
def pageLineSpace : Str :=
  str% "\n\t\t\t\t\t"

/-- `web/templates/compare.stpl:117-118, 132-133`: text of the template. -/
def pageLineEnd : Str :=
  str% "<br>\n\t\t\t\t"

/-- `web/templates/compare.stpl:118-121, 133-136`: text of the template. -/
def pageListEnd : Str :=
  str% "\n\t\t\t</div>\n\t\t</div>\n\t"

/-- `web/templates/compare.stpl:121-123`: text of the template. -/
def pageBetween : Str :=
  str% "\n\n\t"

/-- `web/templates/compare.stpl:123-126`: text of the template. -/
def pageWarningsOpen : Str :=
  str% "\n\t\t<p>\n\t\t\t<button class=\"btn btn-warning\" type=\"button\" data-bs-toggle=\"collapse\" data-bs-target=\"#collapseWarns\" aria-expanded=\"false\" aria-controls=\"collapseWarns\">\n\t\t\t\t"

/-- `web/templates/compare.stpl:126-131`: text of the template. -/
def pageWarningsLead : Str :=
  str% " warnings generated\n\t\t\t</button>\n\t\t</p>\n\t\t<div class=\"collapse\" id=\"collapseWarns\">\n\t\t\t<div class=\"card card-body text-dark bg-light\">\n\t\t\t\t"

/-- `web/templates/compare.stpl:136-144`: text of the template. -/
def pageTableOpen : Str :=
  str% "\n\n\t<table id=\"sort_me\" class=\"display table\">\n\t<thead>\n\t\t<tr>\n\t\t\t<th>File</th>\n\t\t\t<th>Extrinsic</th>\n\n\t\t\t<th>Old ["

/-- `web/templates/compare.stpl:144-145`: text of the template. -/
def pageHeadNew : Str :=
  str% "]</th>\n\t\t\t<th>New ["

/-- `web/templates/compare.stpl:145-155`: text of the template. -/
def pageHeadEnd : Str :=
  str% "]</th>\n\t\t\t<th>Rel. Change</th>\n\t\t\t<th>Abs. Change</th>\n\n\t\t\t<th>Old Equation</th>\n\t\t\t<th>New Equation</th>\n\t\t\t<th>Used Variables</th>\n\t\t</tr>\n\t</thead>\n\t<tbody>\n\t\t"

/-- `web/templates/compare.stpl:155-156`: text of the template. -/
def rowSpace : Str :=
  str% "\n\t\t\t"

/-- `web/templates/compare.stpl:156-158`: text of the template. -/
def rowFile : Str :=
  str% "\n\t\t\t\t<td>\n\t\t\t\t\t"

/-- `web/templates/compare.stpl:158-160`: text of the template. -/
def rowFileEnd : Str :=
  str% "\n\t\t\t\t</td>\n\t\t\t\t"

/-- `web/templates/compare.stpl:160-162`: text of the template. -/
def rowNameWarn : Str :=
  str% "\n\t\t\t\t\t<td class=\"text-warning\">\n\t\t\t\t"

/-- `web/templates/compare.stpl:162-164`: text of the template. -/
def rowNamePlain : Str :=
  str% "\n\t\t\t\t\t\t<td>\n\t\t\t\t"

/-- `web/templates/compare.stpl:164-165`: text of the template. -/
def rowNameSpace : Str :=
  str% "\n\t\t\t\t\t"

/-- `web/templates/compare.stpl:165-167`: text of the template. -/
def rowLinkOpen : Str :=
  str% "\n\t\t\t\t\t<sup>\n\t\t\t\t\t\t"

/-- `web/templates/compare.stpl:167-171`: text of the template. -/
def rowLinkEnd : Str :=
  str% "🔗</a>\n\t\t\t\t\t</sup>\n\t\t\t\t</td>\n\n\t\t\t\t"

/-- `web/templates/compare.stpl:171-172, 174-175, 177-178, 180-181`: text of the template. -/
def rowCellText : Str :=
  str% "\n\t\t\t\t\t"

/-- `web/templates/compare.stpl:172-174, 175-177, 178-180`: text of the template. -/
def rowCellEnd : Str :=
  str% "\n\t\t\t\t</td>\n\t\t\t\t"

/-- `web/templates/compare.stpl:181-185`: text of the template. -/
def rowOldOpen : Str :=
  str% "\n\t\t\t\t</td>\n\n\t\t\t\t<td>\n\t\t\t\t\t"

/-- `web/templates/compare.stpl:185-188, 188-191`: text of the template. -/
def rowNextOpen : Str :=
  str% "\n\t\t\t\t</td>\n\t\t\t\t<td>\n\t\t\t\t\t"

/-- `web/templates/compare.stpl:191-194`: text of the template. -/
def rowEnd : Str :=
  str% "\n\t\t\t\t</td>\n\t\t\t</tr>\n\t\t"

/-- `web/templates/compare.stpl:194-197`: text of the template. -/
def pageBottom : Str :=
  str% "\n\t</tbody>\n\t</body>\n</html>\n"

/-- `web/templates/compare.stpl:42,46,50,54,58`: an input for a text, with its value. -/
def textInput (name value : Str) : Str :=
  str% "<input id=\"input_" ++ name ++ str% "\" type=\"text\" value=\"" ++ escapeHtml value ++ str% "\">"

/-- `web/templates/compare.stpl:64`. -/
def thresholdInput (n : Nat) : Str :=
  str% "<input id=\"input_threshold\" type=\"number\" class=\"form-control\" value=\"" ++ escapeHtml (natToStr n) ++ str% "\">"

/-- `web/templates/compare.stpl:94,98`: a check box. -/
def checkbox (name : Str) (checked : Bool) : Str :=
  str% "<input id=\"checkbox_" ++ name ++ str% "\" type=\"checkbox\" " ++ (if checked then str% "checked" else []) ++ str% ">"

/-- `web/templates/compare.stpl:34-36`: the option for a repository; its value has no quotes. -/
def repoOption (current repo : Str) : Str :=
  optSpace ++ (str% "<option value=" ++ escapeHtml repo ++ str% " " ++ (if current = repo then str% "selected" else []) ++ str% ">")
    ++ escapeHtml repo ++ optEnd

/-- `web/templates/compare.stpl:75-77,86-88`: the option for a dimension or a method. -/
def namedOption (selected : Bool) (name : Str) : Str :=
  optSpace ++ (str% "<option value=\"" ++ escapeHtml name ++ str% "\" " ++ (if selected then str% "selected" else []) ++ str% ">")
    ++ escapeHtml name ++ optEnd

/-- `web/templates/compare.stpl:16-108`: the controls. -/
def pageControls (version : Str) (repos : List Str) (a : CompareArgs) (wasCached : Bool) : Str :=
  pageTop ++ escapeHtml version ++ pageVersionEnd ++ readmeLink (str% "Repository") ++ pageRepoOpen ++ repos.flatMap (repoOption a.repo) ++ pageRepoClose
    ++ textInput (str% "old") a.old ++ pageAfterOld ++ textInput (str% "new") a.new ++ pageRowNext
    ++ readmeLink (str% "Path Pattern") ++ pageCellNext ++ textInput (str% "path_pattern") a.pathPattern ++ pageRowNext
    ++ readmeLink (str% "Pallet") ++ pageCellNext ++ textInput (str% "pallet") (a.pallet.getD (str% ".*")) ++ pageRowNext
    ++ readmeLink (str% "Extrinsic") ++ pageCellNext ++ textInput (str% "extrinsic") (a.extrinsic.getD (str% ".*")) ++ pageRowNext
    ++ readmeLink (str% "Rel Threshold") ++ pageThresholdOpen ++ thresholdInput a.threshold ++ pageAfterThreshold
    ++ readmeLink (str% "Dimension") ++ pageUnitOpen ++ Dimension.reflect.flatMap (fun p => namedOption (a.unit = p.1) p.2) ++ pageUnitClose
    ++ readmeLink (str% "Evaluation Method") ++ pageMethodOpen ++ CompareMethod.reflect.flatMap (fun p => namedOption (a.method = p.1) p.2)
    ++ pageUnitClose
    ++ readmeLink (str% "Ignore Errors") ++ pageCellNext ++ checkbox (str% "ignore_errors") a.ignoreErrors ++ pageRowNext
    ++ readmeLink (str% "Git Pull") ++ pageCellNext ++ checkbox (str% "git_pull") (a.gitPull.getD true) ++ pageRowNext
    ++ readmeLink (str% "Cache") ++ pageHit ++ escapeHtml (if wasCached then str% "Yes" else str% "No") ++ pageControlsEnd

/-- `web/templates/compare.stpl:108-121,123-136`: the list of errors or of warnings. -/
def pageMessages (opening lead : Str) (messages : List Str) : Str :=
  if messages = [] then []
  else opening ++ natToStr messages.length ++ lead ++ messages.flatMap (fun m => pageLineSpace ++ m ++ pageLineEnd) ++ pageListEnd

/-- `web/templates/compare.stpl:136-155`: the header of the table. -/
def pageHeader (unit : Dimension) : Str :=
  pageTableOpen ++ escapeHtml unit.debugName ++ pageHeadNew ++ escapeHtml unit.debugName ++ pageHeadEnd

/-- `web/templates/compare.stpl:172,175`. -/
def pageWeight (unit : Dimension) (v : Option Nat) : Str := escapeHtml ((v.map unit.fmtValue).getD (str% "-"))

/-- `web/templates/compare.stpl:185,188`: link to the code, and equation. -/
def pageTerm (repo org name file rev : Str) (t : Option SimpleTerm) : Str :=
  match t with
  | some t => codeLink repo org name file rev ++ str% " " ++ Term.display Dimension.fmtScalar t
  | none => str% "-"

/-- The opening tag of a cell with a sort key, `web/templates/compare.stpl:171,174,177,180`. -/
def keyedCell (key : Str) : Str := str% "<td data-order='" ++ key ++ str% "'>"

/-- `web/templates/compare.stpl:155-194`: a row of the table. -/
def pageRow (b : Build) (org : Str) (a : CompareArgs) (info : ExtrinsicDiff) (change : TermChange) : Res Str := do
  let keyAbs ← orderAbs b change
  let abs ← htmlColorAbs b change a.unit
  .ok (rowSpace ++ (str% "<tr id=\"" ++ (info.file ++ str% "." ++ info.name) ++ str% "\">") ++ rowFile ++ escapeHtml info.file ++ rowFileEnd
    ++ (if info.warning.isSome then rowNameWarn else rowNamePlain) ++ rowNameSpace ++ escapeHtml info.name ++ rowLinkOpen
    ++ (str% "<a href=\"" ++ (str% "#" ++ info.file ++ str% "." ++ info.name) ++ str% "\">") ++ rowLinkEnd
    ++ keyedCell (natToStr (change.oldV.getD 0)) ++ rowCellText ++ pageWeight a.unit change.oldV ++ rowCellEnd
    ++ keyedCell (natToStr (change.newV.getD 0)) ++ rowCellText ++ pageWeight a.unit change.newV ++ rowCellEnd
    ++ keyedCell (intToStr (orderPercent change)) ++ rowCellText ++ htmlColorPercent change.percent change.change ++ rowCellEnd
    ++ keyedCell (intToStr keyAbs) ++ rowCellText ++ abs ++ rowOldOpen
    ++ pageTerm a.repo org info.name info.file a.old change.old ++ rowNextOpen
    ++ pageTerm a.repo org info.name info.file a.new change.new ++ rowNextOpen
    ++ escapeHtml (Scope.display (Term.display Dimension.fmtScalar) change.scope) ++ rowEnd)

/-- `web/templates/compare.stpl` and `web/src/html.rs:52-65` `Compare::render`; `a` are the arguments after decoding, `repos` the names of the
repositories in the order of the map. -/
def comparePage (b : Build) (version : Str) (repos : List Str) (org : Str) (a : CompareArgs) (diff : List ExtrinsicDiff) (wasCached : Bool) : Res Str := do
  let rows ← (diff.filterMap fun e => e.term.map fun c => (e, c)).mapM fun p => pageRow b org a p.1 p.2
  .ok (pageControls version repos a wasCached ++ pageMessages pageErrorsOpen pageErrorsLead (diff.filterMap ExtrinsicDiff.error) ++ pageBetween
    ++ pageMessages pageWarningsOpen pageWarningsLead (diff.filterMap ExtrinsicDiff.warning) ++ pageHeader a.unit ++ rows.flatten ++ pageBottom)

/-! ### The other pages -/

/-- `web/templates/error.stpl:8-15`: text of the template. -/
def errorStart : Str :=
  str% "</head>\n<body>\n    <div class=\"form-check form-switch\">\n\t\t<label class=\"form-check-label\" for=\"lightSwitch\"> Dark Mode </label>\n\t\t<input class=\"form-check-input\" type=\"checkbox\" id=\"lightSwitch\" />\n\t</div>\n\t<h1>Error</h1>\n\t<h2>"

/-- `web/templates/error.stpl:1-15`. -/
def errorTop : Str := errorHead ++ errorStart

/-- `web/templates/error.stpl:15-33`: text of the template. -/
def errorBottom : Str :=
  str% "</h2>\n\tThe query arguments are explained in the <a href=\"https://github.com/ggwpez/substrate-weight-compare#config-options\" target=\"_blank\">README.md</a>.\n\t</br>\n\t<h2>Examples:</h2>\n    <ul>\n        <li>\n            <a href='/compare?old=768bd6655577dbfda140b40fdd4ca16700fcf589&new=b6770460668a7c3ef8df0ac0f3376e1f917a17e8&threshold=10&unit=weight&repo=polkadot&path_pattern=runtime/kusama/src/weights/*.rs&method=guess-worst&ignore_errors=false#runtime/kusama/src/weights/pallet_election_provider_multi_phase.rs.create_snapshot_internal'>Polkadot with commits</a>\n        </li>\n        <li>\n            <a href='/compare?old=v0.9.19&new=v0.9.20&threshold=30&unit=time&repo=polkadot&path_pattern=runtime/.*/src/weights/.*/.*rs&method=guess-worst&ignore_errors=true'>Polkadot with tags</a>\n        </li>\n\t\t<li>\n            <a href='/compare?old=0345460197179a9f2b3a6310be99360aec69d513&new=644e59a35322a1e5d69f1e7220cb14150b476ff8&threshold=15&unit=weight&repo=substrate&path_pattern=frame/*/src/weights.rs&method=guess-worst&ignore_errors=true'>Substrate with commits</a>\n        </li>\n    </ul>\n</body>\n</html>\n"

/-- `web/templates/root.stpl:14-43`: text of the template. -/
def rootStart : Str :=
  str% "</head>\n\n<body>\n\t<!-- Loading animation, normally hidden -->\n\t<div class=\"overlay\"></div>\n\t<div class=\"spanner\">\n\t\t<div class=\"loader\"></div>\n\t</div>\n\n\t<!-- MultiStep Form -->\n\t<div class=\"container-fluid\" id=\"grad1\">\n\t\t<div class=\"row justify-content-center mt-0\">\n\t\t\t<div class=\"col-11 col-sm-9 col-md-7 col-lg-6 text-center p-0 mt-3 mb-2\">\n\t\t\t\t<div class=\"card px-0 pt-4 pb-0 mb-3\" style=\"margin-top: 10rem\">\n\t\t\t\t\t<h2><strong>Set up a comparison</strong></h2>\n\t\t\t\t\t<div class=\"row\">\n\t\t\t\t\t\t<div class=\"col-md-12 mx-0\">\n\t\t\t\t\t\t\t<form id=\"msform\">\n\t\t\t\t\t\t\t\t<!-- progressbar -->\n\t\t\t\t\t\t\t\t<ul id=\"progressbar\">\n\t\t\t\t\t\t\t\t\t<li class=\"active\" id=\"account\"><strong>Repo</strong></li>\n\t\t\t\t\t\t\t\t\t<li id=\"personal\"><strong>First Commit</strong></li>\n\t\t\t\t\t\t\t\t\t<li id=\"payment\"><strong>Second Commit</strong></li>\n\t\t\t\t\t\t\t\t\t<li id=\"confirm\"><strong>Verify</strong></li>\n\t\t\t\t\t\t\t\t</ul>\n\t\t\t\t\t\t\t\t<!-- fieldsets -->\n\t\t\t\t\t\t\t\t<fieldset>\n\t\t\t\t\t\t\t\t\t<div class=\"form-card\">\n\t\t\t\t\t\t\t\t\t\t<h2 class=\"fs-title\">Repository</h2>\n\t\t\t\t\t\t\t\t\t\t<p>Please select a repository. There are <var>"

/-- `web/templates/root.stpl:1-43`. -/
def rootTop : Str := rootHead ++ rootStart

/-- `web/templates/root.stpl:43-45`: text of the template. -/
def rootCountEnd : Str :=
  str% "</var> available.</p>\n\t\t\t\t\t\t\t\t\t\t<select class=\"form-control js-example-basic-single\" id=\"repoSelect\" style=\"width: 100%;\">\n\t\t\t\t\t\t\t\t\t\t\t"

/-- `web/templates/root.stpl:45`: text of the template. -/
def rootOptSpace : Str :=
  str% "\n\t\t\t\t\t\t\t\t\t\t\t\t"

/-- `web/templates/root.stpl:46-47`: text of the template. -/
def rootOptEnd : Str :=
  str% "</option>\n\t\t\t\t\t\t\t\t\t\t\t"

/-- `web/templates/root.stpl:48-64`: text of the template. -/
def rootFirst : Str :=
  str% "\n\t\t\t\t\t\t\t\t\t\t</select>\n\t\t\t\t\t\t\t\t\t</div>\n\n\t\t\t\t\t\t\t\t\t<input type=\"button\" name=\"next\" class=\"next action-button\" value=\"Next\" />\n\t\t\t\t\t\t\t\t</fieldset>\n\t\t\t\t\t\t\t\t<fieldset>\n\t\t\t\t\t\t\t\t\t<div class=\"form-card\">\n\t\t\t\t\t\t\t\t\t\t<h2 class=\"fs-title\">First commit</h2>\n\t\t\t\t\t\t\t\t\t\t<p>Please select the first commit hash, tag or branch that you would like to use as <i>baseline</i> for your comparison. You can <button type=\"button\" class=\"btn btn-link\" id=\"fetch\">fetch</button> if you think that your branch is missing from this list. There are <var class=\"branchCount\">?</var> available.</p>\n\t\t\t\t\t\t\t\t\t\t<select class=\"form-control js-example-basic-single\" id=\"firstSelect\" style=\"width: 100%;\">\n\t\t\t\t\t\t\t\t\t\t</select>\n\t\t\t\t\t\t\t\t\t</div>\n\n\t\t\t\t\t\t\t\t\t<input type=\"button\" name=\"previous\" class=\"previous action-button-previous\"\n\t\t\t\t\t\t\t\t\t\tvalue=\"Back\" />\n\t\t\t\t\t\t\t\t\t<input type=\"button\" name=\"next\" class=\"next action-button\" value=\"Next\" />\n\t\t\t\t\t\t\t\t</fieldset>\n"

/-- `web/templates/root.stpl:65-77`: text of the template. -/
def rootSecond : Str :=
  str% "\t\t\t\t\t\t\t\t<fieldset>\n\t\t\t\t\t\t\t\t\t<div class=\"form-card\">\n\t\t\t\t\t\t\t\t\t\t<h2 class=\"fs-title\">Second Commit</h2>\n\t\t\t\t\t\t\t\t\t\t<p>Please select the second branch that you would like to compare with. You can <button type=\"button\" class=\"btn btn-link\" id=\"fetch\">fetch</button> if you think that your branch is missing from this list. There are <var class=\"branchCount\">?</var> available.</p>\n\t\t\t\t\t\t\t\t\t\t<select class=\"form-control js-example-basic-single\" id=\"secondSelect\" style=\"width: 100%;\">\n\t\t\t\t\t\t\t\t\t\t</select>\n\t\t\t\t\t\t\t\t\t</div>\n\n\t\t\t\t\t\t\t\t\t<input type=\"button\" name=\"previous\" class=\"previous action-button-previous\"\n\t\t\t\t\t\t\t\t\t\tvalue=\"Back\" />\n\t\t\t\t\t\t\t\t\t<input type=\"button\" class=\"next action-button\"\n\t\t\t\t\t\t\t\t\t\tvalue=\"Confirm\" />\n\t\t\t\t\t\t\t\t</fieldset>\n"

/-- `web/templates/root.stpl:78-103`: text of the template. -/
def rootVerify : Str :=
  str% "\t\t\t\t\t\t\t\t<fieldset>\n\t\t\t\t\t\t\t\t\t<div class=\"form-card\">\n\t\t\t\t\t\t\t\t\t\t<h2 class=\"fs-title text-center\">Verify</h2>\n\t\t\t\t\t\t\t\t\t\t<p>Repository</p>\n\t\t\t\t\t\t\t\t\t\t<input type=\"text\" class=\"disabled\" id=\"selectedRepo\"/>\n\t\t\t\t\t\t\t\t\t\t<p>First Commit</p>\n\t\t\t\t\t\t\t\t\t\t<input type=\"text\" class=\"disabled\" id=\"selectedFirst\"/>\n\t\t\t\t\t\t\t\t\t\t<p>Second Commit</p>\n\t\t\t\t\t\t\t\t\t\t<input type=\"text\" class=\"disabled\" id=\"selectedSecond\"/>\n\t\t\t\t\t\t\t\t\t</div>\n\n\t\t\t\t\t\t\t\t\t<input type=\"button\" name=\"previous\" class=\"previous action-button-previous\"\n\t\t\t\t\t\t\t\t\t\t\tvalue=\"Back\" />\n\t\t\t\t\t\t\t\t\t<input type=\"button\" id=\"bthPost\" class=\"action-button\"\n\t\t\t\t\t\t\t\t\t\tvalue=\"Compare\" />\n\t\t\t\t\t\t\t\t</fieldset>\n\t\t\t\t\t\t\t</form>\n\t\t\t\t\t\t</div>\n\t\t\t\t\t</div>\n\t\t\t\t</div>\n\t\t\t</div>\n\t\t</div>\n\t</div>\n</body>\n\n</html>\n"

/-- `web/templates/root.stpl:48-103`: text of the template. -/
def rootBottom : Str := rootFirst ++ rootSecond ++ rootVerify

/-- `web/templates/merge_requests.stpl:23-50`: text of the template. -/
def mrStart : Str :=
  str% "</head>\n\n<body>\n\t<!-- Loading animation, normally hidden -->\n\t<div class=\"overlay\"></div>\n\t<div class=\"spanner\">\n\t\t<div class=\"loader\"></div>\n\t</div>\n\n\t<div class=\"container-fluid\">\n\t\t<div class=\"container\">\n  \t\t\t<div class=\"row\">\n    \t\t\t<div class=\"col\">\n\t\t\t\t\t<!-- Light switch -->\n\t\t\t\t\t<div class=\"form-check form-switch\">\n\t\t\t\t\t\t<label class=\"form-check-label\" for=\"lightSwitch\"> Dark Mode </label>\n\t\t\t\t\t\t<input class=\"form-check-input\" type=\"checkbox\" id=\"lightSwitch\" />\n\t\t\t\t\t</div>\n\t\t\t\t</div>\n\t\t\t\t<div class=\"col-6\">\n\t\t\t\t\t<p class=\"text-center\">\n\t\t\t\t\t\tPlease <b>double-click</b> on the merge request that you would like to compare.<br>\n\t\t\t\t\t\t<var id=\"highlighted\">0</var> merge requests are <span style=\"color: seagreen;\">highlighted</span> as potentially interesting.<br>\n\t\t\t\t\t</p>\n\t\t\t\t</div>\n\t\t\t\t<div class=\"col\">\n\t\t\t\t\tRepo: <select id=\"select_repo\">\n\t\t\t\t\t\t"

/-- `web/templates/merge_requests.stpl:1-50`. -/
def mrTop : Str := mrHead ++ mrStart

/-- `web/templates/merge_requests.stpl:50-51`: text of the template. -/
def mrOptSpace : Str :=
  str% "\n\t\t\t\t\t\t\t"

/-- `web/templates/merge_requests.stpl:51-52`: text of the template. -/
def mrOptEnd : Str :=
  str% "</option>\n\t\t\t\t\t\t"

/-- `web/templates/merge_requests.stpl:53-71`: text of the template. -/
def mrBottom : Str :=
  str% "\n\t\t\t\t\t</select>\n\t\t\t\t</div>\n\t\t\t</div>\n\t\t</div>\n\n\t\t<table id=\"mrTable\" class=\"display table\">\n\t\t<thead>\n\t\t\t<tr>\n\t\t\t\t<th>Name</th>\n\t\t\t\t<th>Author</th>\n\n\t\t\t\t<th>Head</th>\n\t\t\t\t<th>Base</th>\n\n\t\t\t\t<th>Last Push</th>\n\t\t\t</tr>\n\t\t</thead>\t\n\t</div>\n</body>\n"

/-- `web/templates/error.stpl`, `web/src/html.rs:67-72` `Error::render`. -/
def errorPage (msg : Str) : Str := errorTop ++ escapeHtml msg ++ errorBottom

/-- `web/templates/root.stpl`, `web/src/html.rs:38-43` `Root::render`. -/
def rootPage (repos : List Str) : Str :=
  rootTop ++ escapeHtml (natToStr repos.length) ++ rootCountEnd
    ++ (rootOptions repos).flatMap (fun p => rootOptSpace ++ (str% "<option value=\"" ++ escapeHtml p.1 ++ str% "\">") ++ escapeHtml p.2 ++ rootOptEnd)
    ++ rootBottom

/-- `web/templates/merge_requests.stpl`, `web/src/html.rs:45-50` `MRs::render`; the values of the options have no quotes. -/
def mergeRequestPage (repos : List Repo) : Str :=
  mrTop ++ repos.flatMap (fun r => mrOptSpace ++ (str% "<option value=" ++ escapeHtml (r.organization ++ str% ":" ++ r.name) ++ str% ">")
    ++ escapeHtml (r.organization ++ str% ":" ++ r.name) ++ mrOptEnd) ++ mrBottom

/-- `web/src/main.rs:289-326` `compare` and `web/src/html.rs:74-88`: the answer to a comparison with the given outcome.  `parsed` is the query after
decoding, or the error of its parser; `org` is the organisation of its repository, if it is known; `outcome` is what `do_compare_cached` returns. -/
def compareResponse (b : Build) (version : Str) (repos : List Str) (parsed : Except Str CompareArgs) (org : Option Str)
    (outcome : Res (List ExtrinsicDiff × Bool)) : Res Response :=
  match parsed with
  | .error e => .ok ⟨500, textHtml, errorPage e⟩
  | .ok a => match org with
    | none => .ok ⟨500, textHtml, errorPage (str% "Unknown repo organization '" ++ a.repo ++ str% "'")⟩
    | some org => match outcome with
      | .ok (diff, cached) => (comparePage b version repos org a diff cached).map fun body => ⟨200, textHtml, body⟩
      | .err e => .ok ⟨500, textHtml, errorPage e⟩
      | .panic => .panic
      | .diverge => .diverge

end Swc
