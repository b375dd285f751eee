## Plan per property

| id | model | proof |
|----|-------|-------|
| C01 | `ModelNP` record, scaled/unscaled | field arithmetic |
| C02 | markup values + `load_field` + per-class load/fill | case analysis; negation witness for None fields |
| C03 | `Parameters` = names + two value vectors; `set`/`get` | induction over assignment list, refinement to a map |
| C04 | `dict`/`set_from_dict` as folds | induction over names |
| C05,C06 | expression inductive type, `realVals` left fold; gradient/hessian vectors | `HasDerivAt` along coordinate lines, induction on list |
| C07 | `replace` | list induction |
| C08 | Vandermonde system `p^(n+1)` | invertibility of Vandermonde, matrix algebra |
| C09,C10 | `kExp`, `cutKExp` | algebra, exp positivity, tanh bounds |
| C11 | offsets by running sum | list induction |
| C12,C13,C39 | `Data`, per-channel datasets | list induction |
| C14,C15 | `nll`, `gradient`, `hessian` of Poisson model | calculus, finite sums |
| C16 | NLL with/without offset | algebra |
| C17 | Asimov | `log x ≤ x-1`, PSD form |
| C18,C19 | P, Q matrices | quadratic forms |
| C20,C21,C22 | minimizer bookkeeping | case analysis, induction |
| C23-C26 | survival function abstracted by a structure (strictly antitone, values in (0,1), with inverse) | order reasoning |
| C27,C28 | sorted lists | list/multiset lemmas |
| C29,C30 | N-process lock protocol as a transition system with crash steps | invariants by induction on executions, plus counterexample trace for mutual exclusion |
| C31 | loop with an outcome stream | induction on fuel; non-termination for the all-fail stream |
| C32 | model markup | composition of round trips |
| C33,C34 | channel merging, NP removal | list algebra |
| C35 | dict equality vs hash of ordered names | counterexample + restricted law |
| C36 | FitResult | uses C01 |
| C37 | raster | counterexample + restricted law |
| C38 | scans | list argmin |
| C40 | `realVals` fold | list induction |
