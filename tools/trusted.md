* Lean's kernel (4.33.0), and single modules of Mathlib, which the kernel checks too.
* The axioms `propext`, `Classical.choice`, `Quot.sound`; no other axiom, no `sorry`, no `native_decide` or `bv_decide`.  Witnesses and complete
  finite tables are computed by the kernel (`decide +kernel`).
* The faithfulness of the reading of the C and Scheme sources, which the citations in the model make checkable, and the
  simplifications listed above and at the head of each file of `Model`.
* That the statements in `Props`, with the definitions of `Spec`, say what the English properties say.
* Assumptions about the system, each a hypothesis or a definition in the model: `brk` as in Linux; a read delivers at least
  one byte unless it fails or the file ends; a write writes everything; the handler `throw` does not return.
