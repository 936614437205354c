{"C01":"binary-tree model with nondeterministic nth_element (any list satisfying its postcondition); induction on the tree with the kd invariant.",
"C02":"`make_tree` as a relation over all nth_element results; `Perm` by induction.",
"C03":"query is a function of tree and point; state machine with stale best_/visited_ fields.",
"C04":"induction on the tree.",
"C05":"state machine with vector capacity; UB outcome when the stored root refers to a reallocated buffer.",
"C06":"fuel-free loop on maxiter; loop invariant on the bracket.",
"C07":"same loop; width invariant, negation witness for the boundary.",
"C08":"loop on maxiter; negation witness; partial: when it converges early the result meets the tolerance.",
"C09":"field identity.","C10":"loop invariant.","C11":"loop invariant with powers.","C12":"field identities over the reals; negation for the degenerate branch.",
"C13":"corollary of C10 over the Newton loop model.","C14":"two-rank model; negation witness; partial on one rank.",
"C15":"loop invariant.","C16":"negation witness + symmetric partial.","C17":"loop model.",
"C18":"loop model with abstract step.","C19":"arithmetic on the loop.","C20":"log trace model; negation; partial.",
"C21":"max recursion.","C22":"string model; characterise clashes.","C23":"byte-level encode/decode, file-system map.",
"C24":"map model.","C25":"heap model.","C26":"JSON tree and merge_patch; recursion.","C27":"list update.",
"C28":"state machine over registry.","C29":"derivative identity."}
