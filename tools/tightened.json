{
 "A3": [
  "C56_children_of_constructed (new)"
 ],
 "R19": [
  "Spec IntText/decimalValue: the integer a digit string denotes is now defined positionally in Spec/Literal, so C06, C13, C71 and every theorem stated with IntText no longer mention the model's decValue"
 ],
 "R31": [
  "C75_lexical_errors, AtPiece (C41): message stated with an independent `visible`",
  "C75_one_line (new)"
 ],
 "Y16": [
  "C73_predicates (identifier and operator predicates)"
 ],
 "Y52": [
  "C86_complaint (new)"
 ],
 "Y54": [
  "C60_no_errors_before_parse (new)"
 ],
 "AA22": [
  "C33_format (new)"
 ],
 "AA23": [
  "C33_format (new)"
 ],
 "AA24": [
  "C37_defaults (new)"
 ],
 "AB16": [
  "none: equivalent edit (EOF is the last token and skipping never moves past the last token)"
 ],
 "AB29": [
  "none: equivalent edit (symbolic names are shown only where there is no literal name)"
 ],
 "AB31": [
  "C92_unordered, C92_repeated (new; the same edit is then killed: AC1)"
 ],
 "AC2": [
  "C92_goes_on (new; the same edit is then killed: AC7)"
 ],
 "AJ34": [
  "C65_results (new; kills the same edit)"
 ],
 "AK24": [
  "none: equivalent edit (what an edge leads to depends on the configurations and the token only, so an entry under another decision is never wrong)"
 ],
 "S20": [
  "none: equivalent edit (no accessor with a parameter is called without one)"
 ],
 "AA7": [
  "none: equivalent edit for the results (a conflict noticed earlier only leads to the search with full context earlier)"
 ],
 "Y23": [
  "none: equivalent edit (a negative index is never used)"
 ],
 "W1": [
  "none: the claims at that time were still true of the edited program; with the program of Model/ErrorStrategy.lean the same edit is observable"
 ],
 "S15": [
  "none: observable only in the builder's stack after an exception, which no claim is about"
 ],
 "AL40": [
  "none: C101 states upper bounds, which remain true of the edited program; Props/Work now has examples of a look that leads nowhere, which counts"
 ]
}