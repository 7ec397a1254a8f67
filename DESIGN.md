# Formal model of svgdom: design

Subject: the Rust crate in `/repo` (svgdom 0.18.0).  The model and all proofs are in `lean/Verif`.

## Trusted base

* Lean 4.33.0's kernel, and the reading of the model files against `/repo`.
* Axioms: at most `propext`, `Classical.choice`, `Quot.sound` (no own axioms, no `sorry`, no `native_decide`, no
  `bv_decide`).  `AXIOMS.md` lists them for each theorem (`tools/gen_axioms.py`, from `#print axioms`).
* Whole-table facts (names, categories) are evaluated by the kernel (`decide +kernel`) over the complete table
  and lifted to all ids / all strings by lemmas.

## What is modelled

| file in /repo | model module | how |
|---|---|---|
| `src/tree.rs` | `Model/Tree.lean`, `Model/Iter.lean` | every method, pointer by pointer, on a heap `NodeId -> Links`; all iterators |
| `src/node.rs`, `attributes.rs` | `Model/Node.lean` | all methods (`*_mut` methods in `Model/Edit.lean`); attributes are a list of (name, value) |
| `src/lib.rs`, `name.rs`, `attribute.rs`, `attribute_value.rs` (types) | `Model/Types.lean`, `Model/State.lean` | data types, `St` |
| `src/attribute_type.rs`, `element_type.rs`, `AttributeValue::default_value` | `Model/Tables.lean` (generated by `tools/gen_tables.py`) | membership lists |
| `src/names.rs` | `Model/Names.lean` (generated by `tools/gen_names.py`), `Model/SipHash.lean` | tables, SipHash-1-3, phf lookup |
| `codegen/main.rs` (names), `codegen/*.txt` | `Model/Codegen.lean`, `Model/SpecFiles.lean` (generated by `tools/gen_files.py`) | `to_enum_name`, lines of the lists |
| `src/document.rs` | `Model/Document.lean` | all methods, `Slab`, `Drop` |
| the same methods called while the caller holds `Ref`/`RefMut` guards | `Model/Guard.lean` | one check per `borrow()`/`borrow_mut()` |
| the calls that set or remove data and the copies, with the state at a panic | `Model/UnwindNode.lean` | statement by statement |
| remove_node, drain and the detach inside, with the state at a panic | `Model/UnwindRemove.lean` | statement by statement |
| the copies with borrows of the caller, with the state at a panic | `Model/UnwindCopy.lean` | statement by statement |
| parse_svg and process_node with the document kept when NoSvgElement is returned | `Model/UnwindParse.lean` | statement by statement |
| API histories | `Model/History.lean` | one constructor per public mutating call, `Reachable` |
| `src/parser/mod.rs` | `Model/Xml.lean`, `Model/Values.lean`, `Model/Parser.lean` | everything after the XML / CSS / value parsers |
| `src/parser/text.rs` | `Model/Text.lean` | all functions |
| parse_svg with the freeing of removed nodes | `Model/ParseFree.lean` | free choice of unreferenced nodes at each point |
| `Display` and `Debug` of names, attributes, nodes (`name.rs`, `attribute.rs`, `attributes.rs`, `writer.rs:253-308`) | `Model/Display.lean` | the text |
| `src/writer.rs`, `AttributeValue::write_buf_opt` | `Model/Writer.lean` | the sequence of `XmlWriter` calls, `write_escaped` |
| `Document::to_string_with_opt`, options of `src/writer.rs` | `Model/XmlOut.lean` | characters for a sequence of calls (stands for the crate `xmlwriter`) |

Each definition cites the lines it models.

### State

`St` holds the tree links and the node data of all nodes (two maps over `NodeId`, which together are the contents of
the `Rc<RefCell<..>>` cells), which nodes are still alive (`live`), the allocation counter, the document root and the slab.
A `Weak` pointer is a node id whose `upgrade` succeeds iff the node is live.  A strong `Rc` pointer is a node id.
`free` is an environment step: it drops a node when no strong reference to it exists.

Every method is a total function `St -> .. -> Except Err (St ..)`.  `Err.panic` records the panic site;
`Err.diverge` is returned when a pointer walk exceeds a bound that no acyclic structure reaches (2 * #nodes + 2 steps),
i.e. when the real code would loop forever (on a cyclic structure).

RefCell: methods that hold `borrow_mut` guards while touching other nodes get the list of nodes held; touching a held node is a
panic.  `Model/Tree.lean`, `Model/Node.lean` and `Model/Document.lean` describe callers that hold no guard of their own (the getters
return guards).  `Model/Guard.lean` has the same methods with the guards of the caller as a parameter; C81 to C83 are about them, and
C82 says that what is proved without guards also holds with them unless a call panics because of a guard.

`debug_assert!`s are modelled; a flag in the state says whether they are compiled in.  Theorems hold for both values.

### Not modelled

* Contents of external crates: `roxmltree` (XML text to tree), `simplecss` (CSS text to rules), `svgtypes` (text to values and
  values to text), `xmlwriter` (call sequence to text; see below), `log`, `siphasher` (re-modelled from its definition).  The XML tree is the
  input of the parser model; the value and CSS parsers are arbitrary functions, collected in `Lib` and `ValueWriter` (all theorems
  quantify over them).  Three theorems need facts about them, stated as hypotheses: `C41_document` assumes that the number
  parser never returns NaN; `C65_comes_back` and `C62_faithful_partial` assume, value by value, that the parser reads the text
  the formatter wrote (`Faithful`, `ReferencesReadBack` in `Spec/Faithful.lean`).
* `Spec/Read.lean` (C61, C62) reads the sequence of `XmlWriter` calls, not characters: attribute values stand between quotes `q` as
  they are (`xmlwriter` replaces the quote by a reference, tests/writer.rs:385-417, which is described by taking `<` for `q`, as a quote
  then needs no care; C61 and C62 hold for all `q`), texts and comments as they are, and indentation adds only white space outside
  `text`/`tspan`/`tref`.  Attribute values are read with references resolved; texts with markup characters, and text or comments
  that XML cannot carry, are refused (more than XML demands).  C110 derives these facts for the characters.
* `xmlwriter` (for C110): `Model/XmlOut.lean` is written after the documentation of the options in writer.rs and the expected outputs in
  /repo/tests (all of which are compared in `Verif/Check`), not after the source of the crate, which is not available here.
* `roxmltree::Node::prev_siblings` is assumed to start at the node itself, as its documentation says (used by C56, and by C90 for selectors that ask for the
  previous sibling).
* `resolve_links` searches the descendants lazily; the model lists them first and then searches.  The search does not change the
  tree, so the results are equal; if the list cannot be built (cyclic tree) the model diverges, which C44 excludes.
* Rust's stack: recursion of the parser, of `_remove`, `_drain` and `_make_deep_copy` is not bounded in the main model. `Model/Stack.lean` has these functions
  once more with room for a given number of nested calls (C91), `Model/StackText.lean` the recursions in text.rs and the whole of `parse_svg`; bytes per frame are not modelled.
* When nodes are freed: the main model frees between calls only (`free` is an environment step). C97 shows that the moment makes no
  difference, C102 the same inside `parse_svg`, `drain` and the recursion of `remove_node` (`Model/ParseFree.lean`).  The document that is dropped
  on a parse error is modelled separately (`Model/UnwindParse.lean`, C94).
* Memory exhaustion, stack overflow (other than C91), `usize` overflow of counters.
* State left behind by a panic that the caller catches, except for the methods of tree.rs (`Model/Unwind.lean`, C76, C77), the calls that
  set or remove data, and the copies (`Model/UnwindNode.lean`, C84 to C86; `Model/UnwindCopy.lean`, C109), `remove_node` and `drain` (`Model/UnwindRemove.lean`, C108).
* Of the edits through `text_mut`, `attributes_mut`, `linked_nodes_mut` and `iter_mut`, histories have those that leave links alone
  (`St.Edit`); the others break the invariants (C69_refuted, C111_refuted).  Exchanging whole `Attributes` of two nodes with `mem::swap`
  is C111.
* Several documents (`Model/World.lean`) share one heap of nodes; a call runs on the heap with the root and storage of its document.
  `World.owner` (who made a node) is specification only; no modelled function reads it.  The other claims are stated for histories
  with one document.
* Floating point: `f64` is an extended rational with NaN; only comparison is used by this crate.
* Source positions in warnings and errors; the text of log messages.

## How the model was compared with the code

The code cannot be run here. The reading of the model against `/repo` is supported by the tests of the repository: every test of
`/repo/tests` (except three that only concern XML errors of `roxmltree`) and the examples in the documentation of the crate were run on the
model and give what their authors expect (`Check/Resave.lean`, generated by `tools/gen_repo_tests.py` from `test_resave!`;
`Check/Api.lean`, by hand). The external crates are replaced there by small stand-ins (`Check/Libs.lean`), which no theorem uses. These
are tests of the model, not proofs, and no claim rests on them.

## Proof method per property

Common base: a relation `Repr s F` says that the heap `s` represents the abstract ordered forest `F`
(`kids`, `sibs`, `par` as lists).  Each of detach/append/prepend/insert_after/insert_before is proved to refine the obvious list
operation on `F`, together with the exact panic condition.  Acyclicity is a separate well-foundedness predicate.  Link bookkeeping is
the invariant `LinkInv` on node data; slab bookkeeping is `SlabInv`.

| id | modelled | proof |
|---|---|---|
| C01 | all operations as `Op`, `Reachable` states | invariant by induction over histories, from the refinement theorems |
| C02, C03 | tree methods | refinement to list operations |
| C04 | borrow guards | exact iff characterisation; negation of the documented claim by witness |
| C05 | child relation | well-foundedness preserved if the moved node is not an ancestor of the target; witness for the cycle |
| C06 | `Children` | simulation with a deque, for all interleavings |
| C07 | `Traverse`, `Descendants` | edge list of the finite tree; generic lemma for double-ended walks over a duplicate-free list |
| C08 | the three simple iterators | induction over parent chain / sibling list |
| C09 | `root` field | negation by witness; invariant for top-down histories |
| C10 | split state | frame lemmas for each operation |
| C11 | attribute list | invariant by induction over histories |
| C12-C15 | `node.rs` attribute methods | direct, from the invariant |
| C16-C18 | link bookkeeping | `LinkInv` by induction over histories |
| C19, C20 | `_remove` | induction over the finite subtree; witness for the non-SVG attribute name |
| C21 | `_drain` | induction over the finite subtree against a pure pruning function |
| C22, C23 | `copy_node`, `_make_deep_copy` | induction over attributes / subtree |
| C24 | `Slab` | `SlabInv` by induction over histories |
| C25 | `Drop` | induction over the storage |
| C26 | `svg_element` | from C06 |
| C27, C28 | hash and tables | whole-table kernel evaluation plus lemma over all strings |
| C29, C30 | tables | whole-table evaluation lifted to all nodes/states |
| C31-C35, C41-C44, C50 | parser on an arbitrary XML tree | induction over the XML tree; refinement to a pure function |
| C36-C40 | text.rs | per-string lemmas; induction over the tree |
| C51-C55 | text.rs | exact effect of the loop over pairs of texts as a pure function, prefix invariant by induction; C51_iff through the words (C105) |
| C56 | `XmlNode` | zipper positions; induction over the XML tree |
| C57-C60 | `_parse_svg_attribute_value`, `default_value` | case analysis over the arms; whole-table evaluation |
| C45-C47 | writer as event list | induction over the tree; sorting lemmas |
| C61 | writer, read by an independent XML reader (`Spec/Read.lean`) | induction over the tree: the reader inverts the markup; namespaces of the top element; exactly (`Writable`): every call that is read is fine by itself, the reader merges texts and drops `xmlns` |
| C62 | writer, reader, parser | the expected DOM of the XML is like the document; pairing of nodes; invariant over link resolution; exactness by counting nodes (none is removed) and C64 |
| C63 | `resolve_links` | the searched list is the document order; later removal of text nodes keeps the first match |
| C64 | text.rs | fixed points of the pair loop; the groups of texts as a function on trees; C51 for the result |
| C65 | `_parse_svg_attribute_value`, `write_buf_opt` | both runs of the arms side by side; keywords and strings are written as they were read; typed values by the laws of `svgtypes` |
| C66 | `Display`, `Debug` | an independent reader inverts the text; permutation with the attributes written (C46) |
| C67, C68 | writer as event list, run on the states of `XmlWriter` | induction over the tree; C68 exactly (`C68_iff`), with the switch threaded through the calls (Proof/Switch.lean) |
| C69 | `Model/Edit.lean`: assignments through the `*_mut` methods, a step of the histories | split of the attribute list at the name; counts of references |
| C70, C71 | `Model/World.lean`: one heap, several documents | calls commute with hiding the storage keys of foreign nodes (`Proof/Rekey.lean`), so each document sees the invariant of a single one |
| C72, C73 | `Spec/Memory.lean`: freeing a node that nothing refers to, in any order | a finite heap without cycles of references has an unreferenced node; `dropLoop_ok` gives the references left after the drop |
| C74, C75 | `Model/Loop.lean`: a `for` loop with an arbitrary body; `KeepsRest` is the rule for its invariant | induction over the children not yet visited; the edges of a detached subtree form a walk also for a foreign root |
| C76, C77 | `Model/Unwind.lean`: the moves of tree.rs with the state at a panic; `Spec/Unwind.lean` | agreement with `Model/Tree.lean`; sibling pointers follow a linear order (`Loose`), which survives half of a detach and excludes every panic of `Drop`; for the one call that makes a node its own parent: a node that is stuck blocks `Drop` if it is stored, and is never reached otherwise |
| C78, C79 | `Model/Tree.lean`; `Touching`, `Outcome`, `Op.Safe` | the refinement specifications of the moves, read back through the getters; parent function after a move |
| C80 | `cssTexts` (`Model/Xml.lean`); `styleTexts` (`Spec/Parse.lean`) | induction on the XML tree; the expected DOM (`svgDom`) is stated with `styleTexts` |
| C81 | `Model/Guard.lean`; `GuardedOutcome`, `St.around`, `St.adjoining` (`Spec/Guard.lean`) | each guarded move is rewritten to "panic if one of these nodes is borrowed, else the plain move"; neighbour facts of C01 turn the nodes touched after the detach into nodes of the state before the call |
| C82 | `Respects`, `Untouched` | a relational logic: `Respects` is closed under sequencing, reads and checked writes; copies need that the new element differs from the source |
| C83 | `St.oldTarget`, `InTheWay` (Spec/Barred.lean), `CopyBarred` (Spec/BarredCopy.lean), `DrainBarred` (Spec/BarredDrain.lean) | link invariant (the back reference exists); induction over the removed tree for `remove_node`, over the copied tree for the copies and over the visited tree for `drain`; witnesses for the refutation |
| C84 – C86 | `Model/UnwindNode.lean`: data calls and copies with the state at a panic; `Spec/UnwindNode.lean` | agreement with `Model/Guard.lean` and `Model/Document.lean`; the attributes copied before the panic (`withAttrs` of a prefix); induction over the fuel of the deep copy with the forest as invariant |
| C87 – C89 | `Spec/Distinct.lean`: `attrNames`, `DistinctNames`, `KnownAsIds`, `Xml.Alike`, `Xml.onlyKnown` | the written list is split into declarations, id, SVG attributes and others (C46); names of ids are injective (finite table, `decide +kernel`); induction on the XML tree for the namespaces |
| C90 | `Spec/Noise.lean`: `Xml.Less`, `SeenAlike`, `Rule.Asks` | `Proof/Build.lean`: `process_node` equals building the expected DOM node by node (`Dom.build`), as an equation of functions; the expected DOM does not see the content left out (induction on `Xml.Less`, with a bisimulation for the places that selectors see) |
| C91 | `Model/Stack.lean`, `Model/StackText.lean`: the recursive functions with a bound on nested calls; `Spec/ElemDepth.lean`: levels of elements; `Spec/Depth.lean`: `Trees.height`, `Trees.drainHeight`, `Xml.svgHeight` | the inductions of C20, C21, C23 carry the outcome with bound `d` along; documents of `n` nested elements parse for every `n` |
| C92 | writer, reader, parser; `Spec/Rounds.lean`: rounds of writing and parsing | induction over two trees that are the same: sorted attributes with equal keys agree; C62 gives the first round, determinism the others |
| C93 | `Spec/Picture.lean`: `Picture`, `Call`, `Picture.act`, `Abs`, `Mirrors` | forward simulation call by call from the theorems of the single calls (C02-C05, C12-C15, C19-C24, C72); new nodes are numbered in document order (`Grown.order`); equal pictures give equal events by congruence |
| C94 | `Spec/ParseFail.lean`: `Dom.upToElement`, `seen` | parser with the document kept on the error path; agreement with `parseSvg` by induction on the XML tree; the failing run adds the expected nodes up to the first element; C72 for a document without links |
| C95 | `Spec/Whole.lean`: `Content`, `parsedDoc`, `Content.Shown`, `parsedPicture` | the states of `parse_svg` between its steps (`Front`, `Prepared`) show the five intermediate values; induction on the XML tree for the numbers, on the references for `settle`, on the tree for the texts |
| C96 | `Spec/Users.lean`: `Extras`, `keepLast`, `parsedUsers`, `rootOf` | simulation beside C93: per call, the root records written (`RootSet`, `Tops`) and the user lists as sublists determined by counts (`Less`); for parsing the exact effect of each settled reference |
| C97 | `Spec/Release.lean`: `keepHandles`, `Forest.Rest`, `Picture.Rest` | simulation between two runs of the machine of C93 and C96; freed nodes are a prefix of a parentless sibling list |
| C98 | `Spec/Nesting.lean`: `Nested`, `Call.tidy`, `Picture.Tidy` | invariant on the machine of C93 (nodes outside the document are alone, references point into it); counterexamples of every depth by induction |
| C99 | `Spec/Shuffle.lean`: `SameByName`, `Xml.Shuffled`, `Content.Alike` | orders are connected by exchanges of neighbours; each step of `parsedDoc` (C95) respects an exchange; output by C92 |
| C100 | `Spec/Codegen.lean`: lines of a text, parts of a name, `identifierOf`, `alphabetical`; `Model/SpecFiles.lean` (generated) | whole lists evaluated by the kernel and lifted to all strings with C28; `to_enum_name` by induction |
| C101 | `Spec/Form.lean`: `FormOf` | invariant over `Reachable` (`Formed`), by the frame lemmas of the operations; refuted as stated by a history |
| C102 | `Model/ParseFree.lean`: the parser with freeing; `Outlived` of C97 | simulation: every step after `process_node` is a call of the machine of C93 or an observation of C97 |
| C48 | `write_escaped` | induction over the string with a decoder as specification |
| C49 | value writer | direct |
| C103 | paths of references (`Leads`) | from C18; rings of every length by induction over histories on the machine of C93 |
| C104 | `St.back`, `St.undo`: the calls that take moves back | forests that agree on live nodes; refinement to the machine of C93 and C96, induction over the moves |
| C105 | `Spec/Words.lean`: words by cutting at white space | loop invariant: all texts after the last one that is not blank are blank; generic in what counts as white space, so it also gives C51_iff |
| C106 | `Call.changes`, `Call.shapes`, `Twins`, `Shuffled` (Props/Commute) | the effect of a content change is a function of the nodes it mentions and a shape call leaves those alone (on the picture of C93); carried to the program by C93/C96 |
| C107 | `Spec/Spots.lean`: places, `Call.Apart` | exact sibling sequences after two moves, symmetric in the moves (Proof/Spots); carried to the program by C93/C96 |
| C108 | `Model/UnwindRemove.lean`: remove_node and drain with the state at a panic; `Spec/UnwindRemove.lean` | agreement with `Model/Guard.lean`; mutual induction over the tree: every state between two steps is reached by complete calls (`Toward`); such a state lacks some subtrees and some references (`Partway`), and removing the rest gives the same picture |
| C109 | `Model/UnwindCopy.lean`: the copies with the state at a panic; `Spec/UnwindCopy.lean` (`Undisturbed`) | agreement with `Model/Guard.lean`; step by step: every write goes to a new node, since pointers of new nodes lead to new nodes (`Off`), or changes a list of linked nodes by a new node |
| C110 | `Model/XmlOut.lean` (xmlwriter); `Spec/XmlText.lean` (reader for characters) | the characters as a recursive function of the tree (`render_trees`); the lexer inverts it piece by piece; the pieces build the elements of the calls plus white space, which `unindent` drops; then C61, C62 and C92; for texts that are alone in an element (`Spec/Spread.lean`) the same for the document with white space in its texts (`St.withTexts`), which text processing removes (`tidy_wide`) |
| C111 | `Model/Edit.lean` (`swapAttributes`, reorderings) | a new kind of edit in histories (`St.Edit`), shown to keep references; conversely too many references make a removal panic by induction on the number of back references |
| C112 | `Spec/Settle.lean` (`blanks`), C62 and C92 | the white space of the texts is a measure: one round keeps all assumptions (`round_step`), never adds white space, and keeps the amount only if the texts are normal; then C92; strong induction on the measure. No fixed number of rounds is enough (`Proof/SettleLong.lean`, `Proof/SettleFamily.lean`): nested texts with a leading space, where each round removes one space and so brings the next one to the start; by the exact content of a parsed document (C95) |
| C113 | `Spec/Inline.lean` (`Xml.withoutCss`), C95 | the expected DOMs are the same but for texts in `style` elements (`Dom.Close`), by induction over the XML tree; texts of removed elements do not matter (`tidy_agree`) |
| C114 | `Spec/Removals.lean`, C96 | removal of sets of nodes composes (`Picture.remove_remove`), subtrees lose just what is gone (`inSubtree_removed`), lists of users too (`keepLast_keepLast`) |
| C115 | `Spec/Overwrite.lean` (`Part`, `Call.writes`, `Call.overwrites`), C96 | pictures that differ in one part of one node (`SameBut`) stay so until the part is overwritten; moves start from the forest without the node (`detach_moves`) |
| C116 | `Spec/Vanish.lean` (`OldSame`), C20, C22, C23, C96 | the removed set is the set of new nodes; sublists with equal counts are equal (`sublist_eq_of_counts`); states that agree on old nodes write the same (`oldSame_of`) |
| C117 | `Spec/Twice.lean` (`Ev.notId`, `St.Proper`), C02, C07, C23 | the tree with the copy is the old tree with one subtree repeated (`Trees.twice`); nodes with the same content give the same calls (`Echo.start`), copies give them without ids (`copy_edges`) |
| C118 | `Spec/Without.lean` (`St.Rest`, `St.KeepsXlink`), C03, C07, C20 | the tree afterwards is the old tree without one subtree (`Trees.without`); nodes with the same content give the same calls but for the declarations of namespaces (`Echo.start_split`, `namespaces_events`) |
| C119 | invariants `OfNodes NodeData.named`, `OfNodes NodeData.silent`, `LinkedElements` (`Proof/Debug.lean`) | over the internal steps of every call (`Inner`); parsed documents of release builds by C120 |
| C120 | `Spec/Builds.lean` (`St.release`), `runAll`, C44 | a relation between results, `Mild`, that passes through every step of every function (`Proof/Builds.lean`); parsing in debug builds never panics (C44) |
| C121 | C01, C88, C119 | no node but the root has the type of the root (`NodesOk.root`) |

## Known violations found (kept as witness theorems)

See `MANIFEST.json` notes; each refuted property has a theorem with a concrete history and a `_partial` theorem with the
hypothesis under which it holds.
