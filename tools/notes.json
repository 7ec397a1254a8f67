{
 "C04": "False as stated (C04_refuted): RefCell panics on distinct nodes. The _partial theorems give the exact panic condition of each of the four moves for nodes that are not their own parent.",
 "C05": "False as stated (C05_refuted, C05_endless_refuted): append of an ancestor below its descendant makes a cycle. Proved for every history that never moves a node below itself (C05_acyclic_partial), with the condition shown to be sharp (C05_sharp_partial).",
 "C09": "False as stated (C09_refuted, C09_stale_refuted, C09_panic_refuted). C09_root_partial proves it for nodes of the document tree in all histories where nodes entering the document tree are childless or already in it. The exact answer of root() in every history is C96.",
 "C100": "The two text files and the identifiers of the variants are generated from /repo by tools/gen_files.py (Model/SpecFiles.lean). CapitalizesAscii: to_uppercase is only assumed to be the usual one on ASCII, which all names are. phf_codegen and the Rust text around the tables are not modelled; the tables it produced are checked entry by entry in C27 and C28. C100_collision is a remark: the generator does not notice names with the same identifier (the compiler would).",
 "C101": "C101_form, C101_written (every reachable state), C101_stored (exactly when the given value is stored), C101_conversions, C101_refers (what the conversions make refers to the node, with the given fallback); C101_refuted: a paint for mask loses its fallback. The spec is FormOf (Spec/Form.lean), by cases on the value, separate from the retagging in the model.",
 "C102": "parseSvgF (Model/ParseFree.lean) is parse_svg with an arbitrary choice g of unreferenced nodes to free at every point where a reference is dropped: inside the recursion of remove_node, in drain, after every resolved link and at the end. C102_parse, C102_error, C102_document: same outcome for every g; C102_memory: what is left if everything unreferenced is freed (Prompt; prompt_exists shows there is such a g); C102_drop. C102_remove, C102_drain: these methods alone, in every reachable acyclic state.",
 "C103": "C103_partial: a ring through a live node has at least three references, in every reachable state. C103_refuted: for every n ≥ 3 a reachable acyclic state with a ring of exactly n references and none shorter through that node; C103_refuted_parsed: the same for a parsed file with three.",
 "C104": "C104_undo, C104_partial: the sequence returned by St.undo is run by the model of the program and returns; all observations are as before, root() for nodes that were not moved. C104_refuted: root() of a moved node.",
 "C105": "C105_run is the general statement; C105_element and C105_text follow from it. C105_nbsp and C105_neighbours show that neither restriction can be dropped.",
 "C106": "C106_shuffled: any number of exchanges of independent neighbours (inductive relation Shuffled); C106_sorted: all content changes last; C106_sharp, C106_order: the conditions are needed. Twins lists the observations. A shape call is not moved behind a content change here (it may create the node that is changed). Removals and copies are not among the calls exchanged.",
 "C107": "C107_moves; C107_runs and C107_same_place show that the conditions are needed. Spec: Call.Apart (Spec/Spots.lean); Twins (C106) lists the observations.",
 "C108": "Refuted for shared borrows of a referring node and for borrowed siblings (C108_refuted). C108_remove_partial, C108_drain_partial: true if no node of the subtree and no neighbour whose pointers change is borrowed, and no node that refers to the subtree is borrowed shared; the condition is sufficient, not exact. C108_same_calls: the functions with the state at the panic agree with those of C83.",
 "C109": "C109_copy, C109_deep: for every result, also panics for other reasons than borrows (C85) and runs that do not end. C109_same_calls: the functions with the state at the panic agree with those of C83. That the new nodes themselves are consistent is C16, C22-C24 for calls that return; after a stopped call they need not be (example beside the theorems).",
 "C110": "False in general: C110_refuted (default options: a text outside of text elements that is not the first child gets more white space each time it is saved), C110_refuted_cdata (`]]>` in a text is not escaped), C110_refuted_markup (`<` in a string value is not escaped). C110_partial: if there is no such markup, and either elements are not indented or all texts are in text elements (Trees.Indentable). C110_back_partial, C110_faithful_partial: with the assumptions of C62 the document and its characters come back. C110_spread_partial, C110_faithful_spread_partial: with indentation this also holds if texts outside of text elements are the only child of their element, in default mode (title, desc): they are written with white space around them, and text processing removes it. No assumption about quotes. The crate xmlwriter is modelled from the documentation of its options in writer.rs and the expected texts of the tests, not from its source.",
 "C111": "False in general (C111_refuted: a rectangle with a link and one without). C111_iff: after the exchange attributes of both nodes can be removed in every order without a panic exactly if both lists have the same references, each as often. C111_partial: then (for nodes of the same type), and for every reordering, the result is a reachable state, so all theorems about these apply. C111_effect: what changes and what does not.",
 "C112": "False in general: C112_refuted (markup characters in values are not escaped, so the second output need not be XML). C112_partial: every document that meets the assumptions of C62 except that its texts are normal (ComesBack, PlainNodes, NoBlank), for any sequence of rounds, with a bound on the number of rounds. C112_parsed_partial: parsed documents, with assumptions about ids, texts and values only. C112_settled_iff: the output is the same after one round (and then after any number) if and only if the texts are normal (Trees.NormalText). C112_text_partial: the characters that are written, with any write options (with indentation: texts inside of text elements; no `]]>`, as in C110); St.Saved.unique: each step has one result. C112_no_bound: no fixed number of rounds is enough for all documents, so a bound that depends on the document is needed.",
 "C113": "C113_document: the parsed documents are equal (with the numbers of the nodes). C113_same: parsing succeeds for the same documents, both results show the same document, and the same is written. C113_no_css: the resolved document has no style sheets and no style attributes. Values stay in the order in which the parser takes them, so an attribute may occur twice in the resolved tree if it was given twice (the last valid value counts, C34). Assumes that an empty style sheet has no rules.",
 "C114": "C114_list: the result is that of removing all subtrees at once, also for `linked_nodes()` with its order. C114_order: two lists that cover the same nodes; C114_perm: any order; C114_again: a node that is gone already; C114_drain: `drain` against the single removals; C114_forever: states that agree stay so under all later calls. References under names that are not SVG attribute names are left by the program in all cases (C19), in the same way. The slab keys of the storage may differ, they cannot be seen. drain with a predicate that looks at type, tag name, id and text (as in C93).",
 "C115": "C115_write: parts of a node, up to the order of linked_nodes() (an example shows that it can differ). C115_move: moves, now and after all later calls, if the second move alone does not panic; it may panic where the two together do not, since neighbours cannot be borrowed twice (C04). C115_detach: after detach no move panics. A call that moves a node and a later detach are not covered: root() remembers the move (C104_refuted).",
 "C116": "Refuted for linked_nodes() (C116_refuted): remove_node leaves references under names that SVG does not know (C19), so the gradient keeps the removed copy as a user. C116_deep_iff, C116_copy_iff: everything else is as before, and linked_nodes() too exactly if the copied elements have no such references.",
 "C117": "Refuted in release builds (C117_refuted): a comment or text node can be given the tag name text, for which more is written than for the copy. C117_written_partial: true whenever text nodes and comments below the node have neither that tag name nor an href; C117_debug: so it is true without condition in debug builds.",
 "C118": "",
 "C119": "Refuted in release builds (C119_refuted: a comment with tag name, id and attribute) and for edits through text_mut in all builds (C119_text_refuted). C119_others_partial: in debug builds a node that is not an element has no tag name, id, attributes or back references. C119_elements_partial: after any calls of a debug build elements have no text; missing there are edits through text_mut, for which it is false. C119_parsed: the first half for parsed documents in both builds.",
 "C120": "The debug_assert!s are the only difference between builds that is modelled here; overflow checks are not.",
 "C121": "",
 "C19": "As stated the property is false: a link stored under a non-SVG attribute name survives the removal of its target (C19_refuted). Proved: all SVG-named references are removed and nothing else (C19_svg_partial); no reference of any kind is left if all link attributes have SVG names (C19_remove_partial). Missing: links under other names, where the code does not do it.",
 "C34": "False for finished documents (C34_refuted): references are resolved last and so beat every other value. C34_element proves the order for the values kept while an element is parsed; C34_document_partial carries it to the finished document for every attribute none of whose values is a reference. C34_exact: the exact value of every attribute of every element of a finished document: that of the last reference that was not dropped, else the last valid one.",
 "C39": "False as stated (C39_refuted): text is only normalised below an element whose first child is a text node. C39_clean_partial proves it for exactly those texts, C39_untouched_partial that all other texts are left unchanged. C39_iff: the result is clean exactly if those other texts were clean before.",
 "C43": "Proved for style sheet rules at any place of any rule (C43_rule_partial). False for the style attribute (C43_style_refuted), which stores a marker attribute.",
 "C47": "C47_exact holds in all builds, for every document and every node.",
 "C50": "False in general (C50_refuted): references inside style elements are resolved after these were removed. C50_uses_partial proves it for every document without a reference inside a style element; C50_exact is the exact condition: no removed node holds a settled reference.",
 "C51": "False in general (C51_refuted). C51_content_partial proves the exact result unless: a text consists only of other Unicode white space; two blank texts follow each other; the first text is blank and empty or followed by another child text; there are exactly two texts, the first starts and the second ends with a space. C51_collapsed: for all texts but those of other Unicode white space only, in every mode, the result is right up to superfluous spaces; C51_iff: it is exactly the collapsed text if and only if it has no superfluous space.",
 "C52": "False in general (C52_refuted). C52_preserve_partial: the only possible loss is one final space, and only if the last text of the element ends up empty. C52_used_partial is the same for every text processed in preserve mode, wherever the mode comes from (C54_used).",
 "C54": "False in general (C54_refuted): a mode set between the processed element and the parent of the text is skipped. C54_mode_partial proves it whenever the mode comes from the parent itself or from the processed element. C54_used has no such condition: the mode used is that of the attribute of the parent, or else that of the processed element.",
 "C56": "Proved for the position itself, name, attributes and parent (C56_surroundings_partial). False for the preceding sibling (C56_previous_refuted, C56_first_child_refuted), given the documented behaviour of roxmltree's prev_siblings.",
 "C58": "False for stroke-miterlimit and glyph-orientation-horizontal (C58_refuted), proved for all other attributes (C58_default_partial).",
 "C59": "False for alignment-baseline, clip, cursor, font (C59_refuted), proved for all other presentation attributes (C59_inherit_partial).",
 "C61": "False in general: string values are written without escaping (C61_refuted: font-family with `<`, whatever the quotes and whether or not XmlWriter escapes quotes). Proved for documents with SVG names and values free of markup (C61_partial), against a separate XML reader (Spec/Read.lean). C61_parsed_iff: for parsed documents exactly: the output is well-formed and shows the document if and only if ids, texts and comments stand for themselves, no text follows a text, and something readable is written for every attribute, none of which is called xmlns (Writable). C61_needed: these conditions are needed for every document.",
 "C62": "False in general (C62_refuted: font-family \"&lt;\" comes back as \"<\"; C62_text_refuted: a space of a text is lost by the second parsing). C62_text_partial: documents whose texts are normal in the sense of C64 (C62_partial: the special case without texts); C62_text_exact, C62_parsed_text_exact: under these assumptions the document comes back exactly if its texts are normal; C62_before_text: all documents, up to the final text processing. All assume that every single value is parsed back from what is written (ReadsBack), which is a fact about svgtypes. C62_parsed_partial, C62_parsed_text_partial: for parsed documents the assumptions about names, tags and references are proved. C62_faithful_partial: for parsed documents ReadsBack is proved too (C65), so that only facts about single texts and single svgtypes values are left as assumptions.",
 "C64": "C64_normal: exact characterisation of the texts that processing leaves unchanged. Idempotence is false in general (C64_refuted); C64_idempotent_partial proves it if in every text root the first text is visible and the assumptions of C51 hold.",
 "C65": "Assumptions are stated value by value (Faithful) and for references (ReferencesReadBack); they are about svgtypes, which is not modelled.",
 "C66": "Refuted in general: quotes in values are not escaped, so two different elements can be shown as the same text (C66_refuted). Proved when tag, names, id and values contain no punctuation of the text; A comment reads back exactly if its text contains no \"-->\" (C66_other_partial). C66_returns (no panic) holds for all states. C66_attributes: the same for Display and Debug of a list of attributes, for all states.",
 "C67": "Refuted: a text node can be appended to the root, and then the XML writer panics (C67_refuted). Exact condition in C67_iff; C67_parsed: parsed documents can always be written. The preconditions of XmlWriter are taken from its documentation (Spec/Protocol.lean).",
 "C68": "Refuted for a text element inside a text element: the end of the inner one switches white space handling off for the rest of the outer one (C68_refuted). C68_iff gives the exact condition: the property holds for a document if and only if no node called text is inside of an element called text.",
 "C69": "Refuted without restriction (C69_refuted). C69_effect: exactly the named attribute is replaced. C69_partial: edits that do not touch links keep all invariants; they are a constructor of Reachable, so every theorem about reachable states covers them. C69_attributes_iff, C69_attribute_iff, C69_linked_iff: exactly which changes through attributes_mut and linked_nodes_mut keep references and back references in agreement, and names different. C69_value: the same for get_value_mut.",
 "C70": "Refuted if a document removes nodes another one made (C70_refuted: panics; C70_wrong_node: an unrelated node loses its slot). C70_partial, C70_key_partial, C70_remove_partial: histories in which documents remove only nodes they made (`Worlds`); nodes may be moved and linked across documents. C70_tree, C70_links, C70_unlink: trees and links in these histories.",
 "C71": "Refuted (C71_refuted): a reference into the dropped document loses its back reference, removing the attribute panics. C71_partial: no reference crosses the border of the dropped document's storage. C71_iff: the references stay consistent if and only if this is so, and removing an attribute panics exactly for references from outside into the dropped document.",
 "C72": "Refuted (C72_refuted): two removed nodes with a link under a non-SVG name hold each other. C72_partial: links only between nodes that the document stores. C72_parsed: parsed documents, without restriction. C72_cycle: exact condition.",
 "C73": "Refuted for links under non-SVG names (C73_refuted), proved if all link attributes have SVG names (C73_partial). C73_iff: exactly which nodes of the removed subtree are still referred to.",
 "C74": "C74_children is the general rule (any body, any invariant that keeps the unvisited children in place); C74_detach, C74_move and C74_remove are the three usual loops with their full effect. `forChildren` is a loop in the program of the user, not a function of the library.",
 "C75": "Refuted (C75_refuted). C75_detach: exactly what the iterator gives after the visited node was detached. C75_partial: loops that leave the pointers between nodes alone.",
 "C76": "Refuted (C76_refuted). C76_links_partial: what a panic leaves unchanged. The functions that keep the state at the panic (Model/Unwind.lean) are proved to agree with those of Model/Tree.lean (runU_agrees). C76_iff: in acyclic states the tree is intact after a panic exactly if the two nodes of the call were the same.",
 "C77": "Refuted for insert_after of the parent of a last child (C77_refuted). C77_partial: all other panics of the four methods in acyclic states. C77_iff: in acyclic states the second panic happens exactly after this call, if the document stores the parent.",
 "C80": "Refuted for style elements that do not begin with text (C80_refuted). C80_used_partial says exactly which texts are used, C80_whole_partial when these are all.",
 "C82": "The predicate given to drain is assumed not to borrow nodes itself.",
 "C83": "Refuted by six calls (C83_refuted). C83_remove_partial and C83_set_partial: exact conditions for remove_attribute and set_attribute_checked; C83_node: the exact condition for remove_node in acyclic states; C83_copy, C83_copy_deep: the exact conditions for the copies; C83_drain: the exact condition for drain, in acyclic states and for a predicate that looks at the node only.",
 "C84": "The functions that keep the state at the panic (Model/UnwindNode.lean) are proved to agree with those of Model/Guard.lean and Model/Document.lean (C84_same_calls).",
 "C85": "Refuted by copy_node (C85_refuted). C85_data_partial: the calls that set or remove data. The state after a panic of a copy is described by C84, of a move by C76. C85_copy_iff: a panic of a copy has changed nothing only if the root was to be copied. For the moves C76_iff is the exact condition, so all calls that panic without borrows are covered.",
 "C86": "Refuted by two calls (C86_refuted). C86_partial: sufficient condition for all calls that set or remove data; C86_remove_partial: exact state for remove_attribute. Borrows of the caller during remove_node and drain: C108; during the copies: C109. C86_iff: after a panic of any such call, references and back references agree exactly if the call has changed nothing. C86_text_mut: text_mut panics exactly if this node is borrowed, and then nothing has changed.",
 "C87": "Refuted for documents made by calls (C87_refuted) and for parsed ones (C87_refuted_parsed). C87_exact is the exact condition; C87_partial: parsed documents without an attribute xmlns of a known namespace. The XML reader of C61 now also requires different names for declarations.",
 "C88": "Refuted (C88_refuted). C88_tag_partial and C88_attribute_partial: nodes whose known names are ids; C88_parsed: all elements of parsed documents are such nodes.",
 "C89": "Refuted (C89_refuted). C89_blind: the result does not depend on known namespaces; C89_partial: other namespaces have no effect. Both without style sheets, as selectors may look at attributes.",
 "C90": "Refuted (C90_refuted, C90_refuted_instruction). C90_dom: the result is a function of the expected DOM. C90_partial: what holds with style sheets; C90_attributes: without condition on where the style sheets are. Missing in C90_partial: documents whose style sheets change (that is where it is false).",
 "C91": "Room for nested calls is counted per call of the recursive functions themselves (Model/Stack.lean, Model/StackText.lean); bytes per frame, and the frames of functions that do not recurse, are not modelled. C91_svg is about parse_svg from the XML tree (roxmltree and the style sheet parser have stacks of their own). Built and Region in C91_text are facts about every document between reference resolution and text processing (front_region). C91_no_bound_parse is stated for process_node on the document's children, C91_no_bound_svg for the whole of parse_svg.",
 "C92": "C92_same is about all documents with SVG attribute names in which only elements have names and attributes and references lead to elements (PlainNodes; parsed documents always, plain_parsed). Rounds (Spec/Rounds.lean) read the calls to xmlwriter with the reader of Spec/Read.lean and allow any indentation. Missing in C92_partial: values, ids, texts and comments with markup (C92_refuted), texts that processing changes (C62_text_refuted), and attributes of the output that the parser does not read back.",
 "C93": "The machine is Spec/Picture.lean; it shares Forest and the list operations on it (append, prune, ...) with the specifications of C02-C05, C20, C21, and `retag`/`survives` with C12, C19; nothing of the model of the code. Mirrors: a returned state is again reachable, acyclic and shows the new picture; a panic of the machine is a panic of the program (which panic is C78, C81, C14, C22). Result.misuse: a call with a node nobody has a handle of (not possible in Rust), or a move of a node below itself (which returns and makes a cycle, C04, C79; no picture describes it). editAttribute is misuse if it changes references or doubles a name (C69_refuted). Not in the machine: assignments to linked_nodes_mut (invisible in the picture, C69), loops with bodies that edit (C74, C75), states after a caught panic (C76, C77, C84-C86), several documents (C70, C71).",
 "C94": "parseSvgU (Model/UnwindParse.lean) is parse_svg with the document kept on the error path; C94_exact shows that its caller sees the same as that of parseSvg, so a document is refused exactly when parseSvgU stops. upToElement is defined on the expected DOM (Spec/Parse.lean). Freed: nodes whose last strong reference is gone are freed in any order (as in C72); the handles in `links`, `root` and `parent` are locals and are dropped on return.",
 "C95": "parsedDoc (Spec/Whole.lean) is an executable function without handles, back references, temporary xml:space attributes or removals; C95_parse shows that every successful parse gives exactly this document, C95_unique that a state shows only one document. When parsing succeeds is C31. svgDom (what process_node makes of elements, attributes, styles) is the specification of C32-C34. C95_machine extends this to the whole state: parsedPicture also describes the nodes that were removed on the way (style elements, empty texts) - alone, not stored, with their attributes; the model keeps them until they are released. With C93 this is load and edit (C95_calls), with C95_written load and save.",
 "C96": "Extras (Spec/Users.lean) has the remembered roots and the user lists; its step function is written without link records or removals of positions (keepLast by counting references). C96_step follows each call, C96_history and C96_run whole histories, C96_parsed and C96_calls parsed documents and calls after parsing, C96_observe gives the answers of root(), linked_nodes(), uses_count(), is_used(), C96_same that picture plus extras determine everything observable. Together with C93 and C95 this gives the exact answer of root() whose desired form fails in C09.",
 "C97": "Outlived (Props/Release.lean) relates a state in which handles were dropped to one in which all are kept; C97_history follows both through any calls, C97_panics gives the panics, C97_observe, C97_answer, C97_written what can be seen, C97_any compares two placements. The examples show that the allowed differences do occur. This also says that the model's treatment of freeing (a step between calls) loses nothing.",
 "C98": "C98_refuted: for every n a reachable acyclic state in which the drop of node 1 leads to n + 1 nested drops. C98_partial: in tidy states a node to which nothing refers holds nothing; C98_history: tidy calls keep the state tidy; C98_new, C98_parsed: new and parsed documents are tidy; C98_drop: at most two nested drops after the drop of the document (an example reaches two), and everything is freed. C98_bound: after any history at all, tidy or not, the drops nest at most as deep as there are existing nodes outside of the document; C98_sharp: for every n a reachable acyclic state with n + 1 such nodes in which they nest n + 1 deep. Missing: the claim itself is false, there is no bound for all histories.",
 "C99": "C99_refuted: two orders of href and xlink:href on one element; the references go to different nodes. C99_partial: the documents are the same up to the order of attributes if attributes with the same local name keep their order; C99_permuted: this is so for every order if local names are distinct; C99_observe: also all links between nodes, root() and linked_nodes() are the same; C99_written: the output is the same; C99_parses: success does not depend on the order at all. Style rules are assumed to look at elements only through the functions of XmlNode. C99_used_partial: the same for any order at all, if no element has two attributes with the same local name in the namespaces that the parser looks at; attributes of other vocabularies may stand anywhere."
}
