{"id": "C01", "title": "Navigation pointers stay mutually consistent", "statement": "After any history of API calls that did not panic, parent(), first_child(), last_child(), previous_sibling() and next_sibling() of all live nodes describe one ordered forest: x is a child of p exactly if p is the parent of x, next and previous sibling are inverse to each other, siblings share the parent, first/last child are the two ends of the child sequence, and no node occurs twice.", "quantifier": "every finite history of public calls (node creation, tree moves, attribute edits, removal, draining, copying, handle drops) in any order on any number of nodes", "why_tests_cant": "The number of histories is unbounded and each call patches up to five pointers in up to four nodes; a missed patch shows only for particular neighbourhoods.", "anchors": ["src/tree.rs: Node::append, prepend, insert_after, insert_before, NodeData::detach", "src/document.rs: remove_node, drain, copy_node_deep"]}
{"id": "C02", "title": "append/prepend/insert_before/insert_after move the node to the stated place and nothing else", "statement": "If the call returns, the moved node is taken out of its old sibling sequence and put last / first / directly before / directly after in the target sequence, its parent is the target parent, its own children come along unchanged, and the child sequence of every other node keeps its order and members.", "quantifier": "every consistent forest, every pair of nodes in it", "why_tests_cant": "Effects on all other nodes and all positions (first, middle, last, only child, parentless siblings) cannot be enumerated.", "anchors": ["src/tree.rs: Node::append 238-266, prepend 273-298, insert_after 305-338, insert_before 345-381"]}
{"id": "C03", "title": "detach isolates exactly one node", "statement": "After detach() the node has no parent and no siblings, keeps its children, and every other sibling sequence is the old one without that node; a second detach() changes nothing.", "quantifier": "every consistent forest, every node", "why_tests_cant": "Same as C02.", "anchors": ["src/tree.rs: Node::detach, NodeData::detach 386-412"]}
{"id": "C04", "title": "Tree moves on two different unborrowed nodes do not panic", "statement": "With no RefCell guard held by the caller, append/prepend/insert_before/insert_after panic only when the two nodes are the same node, as their documentation says. (The model refutes this; the exact panic condition is established instead.)", "quantifier": "every consistent forest, every pair of nodes, debug and release builds", "why_tests_cant": "Panics depend on adjacency of the two nodes; only a proof shows that a listed set of conditions is exhaustive.", "anchors": ["src/tree.rs: Node::append, prepend, insert_after, insert_before, detach"]}
{"id": "C05", "title": "The structure stays a forest (no node becomes its own ancestor)", "statement": "After any history of calls no node is its own ancestor, so every traversal terminates. (Refuted for moves of a node below its own descendant; proved for all histories that never do that.)", "quantifier": "every finite history of public calls (node creation, tree moves, attribute edits, removal, draining, copying, handle drops) in any order on any number of nodes", "why_tests_cant": "Acyclicity is a global, inductive property of arbitrary histories.", "anchors": ["src/tree.rs: Node::append, prepend, insert_after, insert_before"]}
{"id": "C06", "title": "children() is a correct double-ended iterator", "statement": "For any interleaving of next() and next_back(), children() behaves as a double-ended queue holding the child sequence: every child is yielded exactly once, in order from each side, then None forever.", "quantifier": "every consistent forest, every node, every finite interleaving of next/next_back", "why_tests_cant": "All interleavings on all widths.", "anchors": ["src/tree.rs: Children::next, next_back, finished"]}
{"id": "C07", "title": "traverse() and descendants() visit the subtree in document order", "statement": "traverse() yields for every node of the subtree one Start and one End edge, properly nested, in document order, also when consumed from both ends in any interleaving; descendants() yields every node of the subtree exactly once, in pre-order, starting with the node itself, and terminates.", "quantifier": "every finite tree in a consistent forest, every start node, every interleaving", "why_tests_cant": "Unbounded depth/width and all interleavings.", "anchors": ["src/tree.rs: Traverse, NodeEdge::next_item, previous_item, Descendants"]}
{"id": "C08", "title": "ancestors(), preceding_siblings(), following_siblings() are exact", "statement": "ancestors() yields the node, its parent, ... up to the parentless node and ends; preceding_siblings()/following_siblings() yield the node and then all siblings before it (nearest first) / after it.", "quantifier": "every finite tree in a consistent forest, every node", "why_tests_cant": "Unbounded depth/width.", "anchors": ["src/tree.rs: Ancestors, PrecedingSiblings, FollowingSiblings"]}
{"id": "C09", "title": "root() returns the topmost ancestor", "statement": "root() of any node is the last node of its ancestors() and never panics. (Refuted: the cached root is not updated for descendants of a moved node nor by detach(); proved for histories in which every moved node is childless and nothing is detached, as the parser does.)", "quantifier": "every finite history of public calls (node creation, tree moves, attribute edits, removal, draining, copying, handle drops) in any order on any number of nodes", "why_tests_cant": "The failure needs a specific order of appends; absence of failure for top-down construction is an inductive fact.", "anchors": ["src/tree.rs: Node::root 96-101, append 246, prepend 280, insert_after 312, insert_before 353, detach"]}
{"id": "C10", "title": "Tree moves never touch node data and data edits never touch the tree", "statement": "append/prepend/insert/detach leave type, tag name, id, text, attributes, linked nodes and document membership of all nodes unchanged; set_id/set_text/set_tag_name/set_attribute/remove_attribute leave all tree relations unchanged.", "quantifier": "every state, every operation", "why_tests_cant": "A frame property over all nodes and fields.", "anchors": ["src/tree.rs: append..detach", "src/node.rs: set_id, set_text, set_tag_name, set_attribute_checked, remove_attribute"]}
{"id": "C11", "title": "Attribute names are unique per node", "statement": "After any history of API calls no node has two attributes with the same name.", "quantifier": "every finite history of public calls (node creation, tree moves, attribute edits, removal, draining, copying, handle drops) in any order on any number of nodes", "why_tests_cant": "Invariant over histories.", "anchors": ["src/attributes.rs: Attributes::insert, remove", "src/node.rs: set_attribute_checked"]}
{"id": "C12", "title": "set_attribute is last-write-wins and affects only that attribute", "statement": "After a successful set_attribute_checked(name, v): has_attribute(name) holds, the stored value is v (links re-tagged by attribute name: href as Link, fill/stroke as Paint, others as FuncLink), all other attributes keep value and relative order, the written attribute is last, and no attribute of another node changes.", "quantifier": "every state satisfying the link invariant, every node, every attribute", "why_tests_cant": "All prior contents and all value kinds.", "anchors": ["src/node.rs: set_attribute_checked_impl 458-477, set_simple_attribute, set_link_attribute"]}
{"id": "C13", "title": "remove_attribute removes exactly that attribute", "statement": "After remove_attribute(name) the node has no such attribute, all its other attributes keep value and order, no attribute of another node changes, and removing an absent attribute changes nothing.", "quantifier": "every state, node and name", "why_tests_cant": "All prior contents.", "anchors": ["src/node.rs: remove_attribute 563-587", "src/attributes.rs: Attributes::remove"]}
{"id": "C14", "title": "set_attribute_if_none never overwrites", "statement": "If the node has the attribute already, set_attribute_if_none changes nothing at all; otherwise it equals set_attribute.", "quantifier": "every state, node and attribute", "why_tests_cant": "All prior contents.", "anchors": ["src/node.rs: set_attribute_if_none 547-554"]}
{"id": "C15", "title": "A rejected link leaves everything unchanged, and links are rejected exactly in the documented cases", "statement": "set_attribute_checked returns ElementMustHaveAnId iff the target id is empty, ElementCrosslink iff the target has an id and (ids are equal or the target already links to this node), and on any error the whole document state is unchanged; values without a node are always accepted.", "quantifier": "every state satisfying the link invariant, node and attribute", "why_tests_cant": "All link configurations.", "anchors": ["src/node.rs: set_link_attribute 489-528"]}
{"id": "C16", "title": "linked_nodes mirrors link attributes exactly", "statement": "After any history, for all nodes a and b, the number of times a occurs in b.linked_nodes() equals the number of attributes of a whose value refers to b; hence uses_count() is the number of referring attributes and is_used() is true iff there is one.", "quantifier": "every finite history of public calls (node creation, tree moves, attribute edits, removal, draining, copying, handle drops) in any order on any number of nodes", "why_tests_cant": "The back references are maintained by hand in three places; a leak shows only after particular overwrite/remove orders.", "anchors": ["src/node.rs: set_link_attribute, remove_attribute, linked_nodes, is_used, uses_count"]}
{"id": "C17", "title": "remove_attribute never hits its unwrap()", "statement": "In every state reachable through the API, remove_attribute (and every set_attribute of a plain value on an element) returns without panicking.", "quantifier": "every finite history of public calls (node creation, tree moves, attribute edits, removal, draining, copying, handle drops) in any order on any number of nodes", "why_tests_cant": "The code comment says \"this code can't panic, because we know that such node exist\"; that is an invariant over all histories.", "anchors": ["src/node.rs: remove_attribute 578-580"]}
{"id": "C18", "title": "No element links to itself and no two elements link to each other", "statement": "After any history no attribute of a node refers to that node, and there are no two nodes that refer to each other by attributes.", "quantifier": "every finite history of public calls (node creation, tree moves, attribute edits, removal, draining, copying, handle drops) in any order on any number of nodes", "why_tests_cant": "Depends on the order in which links and ids are set.", "anchors": ["src/node.rs: set_link_attribute 499-507"]}
{"id": "C19", "title": "remove_node leaves no reference to a removed node", "statement": "After remove_node(n), no attribute of any remaining node refers to n or to a node of its subtree, no removed node has link attributes, and no linked_nodes list mentions a removed node. (Refuted for links stored under a non-SVG attribute name; proved when all link attributes have SVG names.)", "quantifier": "every reachable state with a finite subtree", "why_tests_cant": "All link topologies between removed and remaining nodes.", "anchors": ["src/document.rs: _remove 240-295"]}
{"id": "C20", "title": "remove_node takes the whole subtree out and nothing else", "statement": "After remove_node(n): every node of the subtree is detached from the document (is_detached), has no parent, siblings or children; every other node keeps its place, i.e. the remaining forest is the old one without the subtree; and the call does not panic.", "quantifier": "every reachable state with a finite subtree", "why_tests_cant": "Unbounded subtrees; removal happens while an iterator over the children is live.", "anchors": ["src/document.rs: remove_node, _remove"]}
{"id": "C21", "title": "drain removes exactly the topmost matching descendants and counts them", "statement": "drain(root, f) for a predicate on type/tag/text/id removes every descendant of root for which f holds (with its subtree), keeps every other node in its place, never removes root, and returns the number of matching nodes that are not inside another removed node.", "quantifier": "every finite tree, every predicate on stable node data", "why_tests_cant": "The walk removes nodes it is walking over.", "anchors": ["src/document.rs: drain, _drain 311-328"]}
{"id": "C22", "title": "copy_node copies tag and attributes but not the id", "statement": "copy_node(n) of an element returns a new parentless node with the same tag name, the same attributes in the same order with equal values, empty id, no linked nodes; n and its neighbourhood are unchanged except that link targets gain one use per copied link. It panics iff a link target has an empty id or n is a document root.", "quantifier": "every reachable state, every node", "why_tests_cant": "All attribute lists and link targets.", "anchors": ["src/document.rs: copy_node 333-348"]}
{"id": "C23", "title": "copy_node_deep builds an isomorphic tree", "statement": "copy_node_deep(n) returns the root of a new tree of fresh nodes with the same shape, types, tags, texts and attributes as the subtree of n, all ids empty; the source tree is unchanged. It panics exactly if the subtree contains the document root or an element that refers to a node without an id.", "quantifier": "every reachable state with a finite subtree", "why_tests_cant": "Unbounded subtrees.", "anchors": ["src/document.rs: copy_node_deep, _make_deep_copy 359-368"]}
{"id": "C24", "title": "Document membership bookkeeping is exact", "statement": "A node is stored by the document from creation until remove_node takes it; is_detached() tells exactly which; storage slots are never shared and are reused after removals, and no removal ever uses an invalid key or evicts another node.", "quantifier": "every finite history of public calls (node creation, tree moves, attribute edits, removal, draining, copying, handle drops) in any order on any number of nodes", "why_tests_cant": "Slot reuse after removals makes key mix-ups history dependent.", "anchors": ["src/document.rs: create_element, create_node, _remove 288-294", "src/node.rs: is_detached 161"]}
{"id": "C25", "title": "Dropping the document breaks all reference cycles among its nodes", "statement": "After the document is dropped every node it still stored has no attributes, no linked nodes, no parent and no siblings, and no stored node is the child of any stored node, so no stored node keeps another one alive; dropping never panics.", "quantifier": "every reachable acyclic state", "why_tests_cant": "All link/tree topologies.", "anchors": ["src/document.rs: Drop for Document 371-379"]}
{"id": "C26", "title": "svg_element returns the first svg child of the root", "statement": "svg_element() is the first child of the document root whose tag is svg, or None if there is none.", "quantifier": "every consistent state", "why_tests_cant": "All child sequences.", "anchors": ["src/document.rs: svg_element 195-203"]}
{"id": "C27", "title": "Element and attribute names round-trip", "statement": "from_str(as_str(id)) = Some(id) for every ElementId and AttributeId, and as_str never panics.", "quantifier": "every id of both enums (whole table, through the real hash)", "why_tests_cant": "Would be testable id by id, but is needed as a lemma and is checked here through the model of the hash.", "anchors": ["src/names.rs: Map::get, Map::key, hash, get_index, split, displace"]}
{"id": "C28", "title": "from_str is sound for every string and never panics", "statement": "For every string s: from_str(s) does not index out of bounds or overflow, and if it returns Some(id) then as_str(id) = s; so from_str succeeds exactly on the listed names and different ids have different names.", "quantifier": "every string (any length, any characters)", "why_tests_cant": "Infinite input domain; index computation uses u32 arithmetic that would panic on overflow in debug builds.", "anchors": ["src/names.rs: Map::get 862-875, get_index 890-894, displace 909"]}
{"id": "C29", "title": "Category predicates are consistent with each other", "statement": "basic shapes are shapes, shapes are graphics, text content children are text content, gradients are paint servers, paint servers are referenced; inheritable attributes are presentation attributes; fill and stroke attributes are presentation attributes; no attribute is both fill and stroke; nodes with non-SVG tag names are in no category.", "quantifier": "every id, every node", "why_tests_cant": "Finite, but the node level statements quantify over all nodes.", "anchors": ["src/element_type.rs", "src/attribute_type.rs"]}
{"id": "C30", "title": "Default values are never links and only exist for presentation attributes", "statement": "Attribute::new_default(id) returns an attribute with that very id whose value does not refer to a node; it returns Some only for presentation attributes; setting it never fails.", "quantifier": "every attribute id, every node and state", "why_tests_cant": "Combination with arbitrary states.", "anchors": ["src/attribute_value.rs: default_value 166-236", "src/attribute.rs: new_default"]}
{"id": "C31", "title": "A parsed document starts with svg", "statement": "If parsing succeeds, the first element child of the root is an svg element and svg_element() returns it; if the first SVG element at the top level is not svg, or there is none, the result is NoSvgElement.", "quantifier": "every XML tree", "why_tests_cant": "All XML inputs.", "anchors": ["src/parser/mod.rs: parse_svg 46-75, process_node 167-176"]}
{"id": "C32", "title": "The DOM tree mirrors the SVG part of the XML tree", "statement": "Before link and text processing the DOM tree is the XML tree with exactly these nodes dropped: elements outside the SVG namespace or with unknown name (with their subtrees), processing instructions, and whitespace-only text outside text/tspan/tref; order, nesting, tags, ids, comments and texts are kept.", "quantifier": "every XML tree, every outcome of the value parsers", "why_tests_cant": "All XML inputs.", "anchors": ["src/parser/mod.rs: process_node 77-179"]}
{"id": "C33", "title": "style, class and id never show up as attributes after parsing", "statement": "No node of a parsed document has an attribute named style, class or id, and no style element is left in the tree.", "quantifier": "every XML tree", "why_tests_cant": "All XML inputs and style sheets.", "anchors": ["src/parser/mod.rs: parse_svg_attribute 189-199, parse_svg 68"]}
{"id": "C34", "title": "Style precedence: style attribute over style sheet over presentation attribute", "statement": "For a presentation attribute the parsed value is the last valid one in the order: presentation attributes, matching style sheet rules, style attribute. (Refuted: references are deferred, so fill=\"url(#a)\" beats style=\"fill:red\"; proved when no value of that attribute is a reference. Exactly: the last reference that is not dropped, else the last valid value.)", "quantifier": "every element, rule list and style attribute", "why_tests_cant": "All combinations of sources.", "anchors": ["src/parser/mod.rs: process_node 102-130, parse_svg_attribute_value, resolve_links"]}
{"id": "C35", "title": "Links resolve to the first element with that id, or to the documented fallback", "statement": "Every collected reference is resolved against the first node in document order with that id; an accepted reference becomes a link to that node; an unresolvable paint takes its fallback, fill becomes none, href becomes the text \"#id\", other references the text \"url(#id)\"; self and mutual references are dropped without any change.", "quantifier": "every document and reference list", "why_tests_cant": "All id/reference topologies.", "anchors": ["src/parser/mod.rs: resolve_links 664-712"]}
{"id": "C36", "title": "Text preprocessing never panics", "statement": "prepare_text returns for every DOM tree produced by process_node: no byte slicing off a char boundary, no unwrap on a missing parent, no index out of range.", "quantifier": "every tree, every text content (any Unicode), every xml:space assignment", "why_tests_cant": "Byte level slicing on arbitrary Unicode text.", "anchors": ["src/parser/text.rs: remove_first, prepare_text_children 93-249"]}
{"id": "C37", "title": "No empty text node survives parsing", "statement": "After prepare_text no text node in the tree is empty, and no non-text node was removed by it.", "quantifier": "every tree", "why_tests_cant": "All texts.", "anchors": ["src/parser/text.rs: prepare_text 48-49"]}
{"id": "C38", "title": "trim normalises whitespace", "statement": "trim(text) contains no CR, LF or TAB; with xml:space=default it has no two adjacent spaces and is the input with whitespace runs collapsed; with preserve it has the same length and differs only in CR/LF/TAB replaced by space; trimming twice equals trimming once.", "quantifier": "every text, both modes", "why_tests_cant": "All texts.", "anchors": ["src/parser/text.rs: trim 261-283"]}
{"id": "C39", "title": "All text under processed text elements is normalised", "statement": "After parsing, no text node contains CR, LF or TAB. (Refuted when an element has a text child but its first child is not text; proved for all texts below an element whose first child is text; and the result has no such character exactly if the texts below no such element had none before.)", "quantifier": "every tree", "why_tests_cant": "All mixed content shapes.", "anchors": ["src/parser/text.rs: _prepare_text 52-65, prepare_text_children 93-104"]}
{"id": "C40", "title": "xml:space bookkeeping leaves no trace", "statement": "prepare_text leaves the attribute list of every node exactly as it was: helper xml:space attributes are all removed again, existing ones are kept.", "quantifier": "every tree", "why_tests_cant": "Helper attributes are set at three places and removed from a worklist.", "anchors": ["src/parser/text.rs: prepare_text 39-46, get_xmlspace, set_xmlspace"]}
{"id": "C41", "title": "Opacity-like values are clamped to [0,1]", "statement": "Whatever number is written, a parsed opacity, fill-opacity, flood-opacity, stroke-opacity, stop-opacity or k1..k4 number is between 0 and 1, and equals the written number if that is within the range.", "quantifier": "every number (including infinities)", "why_tests_cant": "All numbers.", "anchors": ["src/parser/mod.rs: f64_bound 273-281, _parse_svg_attribute_value 366-388"]}
{"id": "C42", "title": "CSS can only set presentation attributes and transform", "statement": "Style sheet rules and style attributes can only change presentation attributes or transform of an element; every other attribute is the one given as XML attribute; unknown property names are ignored.", "quantifier": "every element, rule list, style attribute", "why_tests_cant": "All CSS inputs.", "anchors": ["src/parser/mod.rs: parse_css_attribute_value 233-269, parse_style_attribute 644-662"]}
{"id": "C43", "title": "The marker shorthand sets the three marker properties", "statement": "A marker declaration is treated as marker-start, marker-mid and marker-end. (Holds for style sheet rules; refuted for the style attribute, which sets a marker attribute instead.)", "quantifier": "every marker value", "why_tests_cant": "All values, both CSS sources.", "anchors": ["src/parser/mod.rs: parse_css_attribute_value 251-263, parse_style_attribute 655"]}
{"id": "C44", "title": "A parsed document satisfies all DOM invariants", "statement": "The document returned by parsing has a consistent acyclic tree, exact membership bookkeeping, exact link bookkeeping, no self or mutual links, unique attribute names, and parsing itself never panics.", "quantifier": "every XML tree, every outcome of the value parsers", "why_tests_cant": "All XML inputs.", "anchors": ["src/parser/mod.rs: parse_svg"]}
{"id": "C45", "title": "Written XML is balanced and follows the tree", "statement": "The writer opens and closes exactly one element per element node of the tree, properly nested and in document order, and writes each comment and text node once, in place.", "quantifier": "every finite tree", "why_tests_cant": "Unbounded trees.", "anchors": ["src/writer.rs: write_dom 128-174"]}
{"id": "C46", "title": "Every attribute is written once, in the documented order", "statement": "For each element the writer emits the namespace declarations (only on the svg element at the top, xlink only if some element uses it), then id (if not empty), then all SVG attributes sorted by AttributeId, each exactly once, then all other attributes in insertion order, each exactly once; only a unicode attribute with a non-string value is left out.", "quantifier": "every attribute list with unique names", "why_tests_cant": "All attribute lists.", "anchors": ["src/writer.rs: write_attributes 182-237"]}
{"id": "C47", "title": "xlink is declared whenever it is used", "statement": "In a document whose only top-level element is svg, xmlns:xlink is written on that element iff some element has an href attribute, so no xlink:href is written without the declaration. In every document, xmlns:xlink is written on exactly those nodes called svg right below the root that have an href on themselves or below. (Refuted for documents whose top-level element is not svg.)", "quantifier": "every finite tree", "why_tests_cant": "Unbounded trees.", "anchors": ["src/writer.rs: write_attributes 188-197"]}
{"id": "C48", "title": "unicode values survive escaping", "statement": "Decoding the numeric character references written for a unicode attribute gives back the original string, for every string that does not start with \"&#\"; strings starting with \"&#\" are written verbatim.", "quantifier": "every string", "why_tests_cant": "All Unicode strings.", "anchors": ["src/writer.rs: write_escaped 239-251"]}
{"id": "C49", "title": "Serialised references follow the target id", "statement": "A link attribute is always written with the current id of its target; after target.set_id(new) every reference to it is written with the new id without touching the referring elements.", "quantifier": "every state", "why_tests_cant": "All link topologies.", "anchors": ["src/attribute_value.rs: write_buf_opt 278-300"]}
{"id": "C50", "title": "After parsing, uses_count counts only elements of the document", "statement": "Every node in the linked_nodes list of a node of a parsed document is itself in the document tree. (Refuted: references collected inside style elements are resolved after those elements were removed; proved when no reference is collected inside a style element.)", "quantifier": "every XML tree", "why_tests_cant": "All XML inputs.", "anchors": ["src/parser/mod.rs: parse_svg 66-70, resolve_links"]}
{"id": "C51", "title": "Default white space is collapsed over the whole text element", "statement": "Where no xml:space=\"preserve\" applies, the text of a processed element (all its text nodes in document order, including those inside nested elements) is exactly the written text with CR, LF, TAB turned into spaces, runs of spaces (also across element borders) reduced to one, and no space at either end. (Refuted: with two text nodes a space at the start of the first keeps the one at the end of the second; proved under conditions on blank texts.)", "quantifier": "every tree, every text", "why_tests_cant": "Unbounded number of text nodes at all depths and all texts; the pairwise loop carries state.", "anchors": ["src/parser/text.rs: prepare_text_children 93-148, process_text_nodes 154-238, trim 261-283"]}
{"id": "C52", "title": "xml:space=\"preserve\" keeps every character", "statement": "A text node whose element is in preserve mode keeps all its characters (CR, LF, TAB become spaces). (Refuted: the final space is dropped if the last text of the element turns out empty; proved that this is the only loss.)", "quantifier": "every tree, every text", "why_tests_cant": "All positions of preserve elements among default ones.", "anchors": ["src/parser/text.rs: process_text_nodes 160-231"]}
{"id": "C53", "title": "Text processing loses only spaces", "statement": "For every node, the text after processing has exactly the characters of the text before other than SP, CR, LF, TAB, in the same order; every removed node is a text node of only these characters.", "quantifier": "every tree, every text", "why_tests_cant": "All texts, all trees.", "anchors": ["src/parser/text.rs: prepare_text 31-50, process_text_nodes, trim"]}
{"id": "C54", "title": "xml:space is inherited", "statement": "A text node is normalised in the mode that the nearest xml:space attribute on its ancestors gives. (Refuted: an element without the attribute takes the mode of the outermost processed element, skipping elements between; proved otherwise. Exactly: the mode used is always that of the parent's own attribute, or else that of the outermost processed element.)", "quantifier": "every tree", "why_tests_cant": "All placements of the attribute on a path.", "anchors": ["src/parser/text.rs: get_xmlspace 67-78, prepare_text_children 93-104"]}
{"id": "C55", "title": "An element with a single text node", "statement": "If a processed element has exactly one text node, that text becomes: in default mode the collapsed text without spaces at the ends, in preserve mode the text with CR, LF, TAB turned into spaces.", "quantifier": "every tree, every text", "why_tests_cant": "All texts.", "anchors": ["src/parser/text.rs: prepare_text_children 114-141"]}
{"id": "C56", "title": "Selectors see the true surroundings of an element", "statement": "While a style sheet is applied, the name, attributes, parent element and preceding sibling element that a selector asks for are those of the element in the XML tree; in particular :first-child holds exactly for elements with no element before them. (Refuted for the preceding sibling, assuming that roxmltree::Node::prev_siblings starts at the node itself as documented: an element is taken as its own predecessor and :first-child never matches.)", "quantifier": "every XML tree, every element", "why_tests_cant": "All positions in all trees.", "anchors": ["src/parser/mod.rs: XmlNode 714-744"]}
{"id": "C57", "title": "Parsed values have the type of their attribute", "statement": "In a parsed document every SVG attribute has a value of one of the types listed for that attribute (a width is a length, fill is none, inherit, currentColor, a colour or a paint reference, ...); number lists, length lists and paths are not empty; offset has no unit or a percentage.", "quantifier": "every XML tree, every outcome of the value parsers", "why_tests_cant": "270 attributes, about 30 arms, all texts.", "anchors": ["src/parser/mod.rs: _parse_svg_attribute_value 283-629, resolve_links 664-712"]}
{"id": "C58", "title": "Default values have a type that parsing gives", "statement": "AttributeValue::default_value(id) is a value that the parser can produce for this attribute. (Refuted for stroke-miterlimit, a length instead of a number, and glyph-orientation-horizontal, a text instead of an angle; proved for all others.)", "quantifier": "every attribute", "why_tests_cant": "The two tables are in different files.", "anchors": ["src/attribute_value.rs: default_value 166-236; src/parser/mod.rs: _parse_svg_attribute_value"]}
{"id": "C59", "title": "inherit is recognised on every presentation attribute", "statement": "The value \"inherit\" of a presentation attribute is parsed as AttributeValue::Inherit. (Refuted for alignment-baseline, clip, cursor and font; proved for the other 57.)", "quantifier": "every presentation attribute, every element", "why_tests_cant": "The two tables are in different files.", "anchors": ["src/parser/mod.rs: _parse_svg_attribute_value 283-629"]}
{"id": "C60", "title": "White space around a value is ignored", "statement": "Values that differ only in leading and trailing white space give the same result, for every attribute except unicode, whose value is taken as it is.", "quantifier": "every attribute, element and text", "why_tests_cant": "All texts.", "anchors": ["src/parser/mod.rs: _parse_svg_attribute_value 294-298"]}
{"id": "C61", "title": "The output is well-formed XML and shows the document", "statement": "For a parsed document the sequence of writer calls is a well-formed XML document; read with namespaces, it has the same elements (in the SVG namespace, with the same names, ids and attributes), texts and comments in the same places. (Refuted: string values are written without escaping, so a `<` in font-family breaks the output; proved for documents whose names are SVG names and whose ids, texts, comments and written values are free of markup.)", "quantifier": "every reachable document, every value writer, both quotes", "why_tests_cant": "All trees, attributes and texts; an independent XML reader is the specification.", "anchors": ["src/writer.rs: write_dom 128-180, write_attributes 182-237, write_escaped 239-251"]}
{"id": "C62", "title": "Writing and parsing again gives the same document", "statement": "Parsing the output (indented or not) gives a document with the same shape, node types, tag names, ids, texts, comments and attribute values, in which every reference leads to the node at the same place as before. (Refuted: a string value with the text of a character reference comes back as that character; a second parsing can remove a space from text that the first one left; proved for documents whose texts need no processing, and up to text processing for all documents, assuming that each single written value is parsed back to itself.)", "quantifier": "every reachable document, every XML document equal to the output up to indentation", "why_tests_cant": "Composition of writer, reader, parser and link resolution over all documents.", "anchors": ["src/writer.rs: write_dom 128-237; src/parser/mod.rs: parse_svg 46-110, resolve_links 664-712"]}
{"id": "C63", "title": "References lead to the first element with the id", "statement": "In a parsed document every stored reference leads to the first node of the document, in document order, that has the id of its target; the target is an element, its id is not empty and is not the id of the referring element.", "quantifier": "every XML tree, every outcome of the value parsers", "why_tests_cant": "All documents, duplicate ids, removed style and text nodes.", "anchors": ["src/parser/mod.rs: resolve_links 664-712"]}
{"id": "C64", "title": "Text that is normal is left alone; processing is idempotent", "statement": "Text processing changes nothing exactly if the texts are normal: in each text root no text is empty, each is collapsed in its mode, no border between two texts and no outer end has a superfluous space. The result of text processing is normal, so that processing it again changes nothing. (The second part is refuted: a blank first text is removed and makes an inner element a text root of its own; proved if the first text of every text root is visible and C51 applies.)", "quantifier": "every document that the parser gives to prepare_text", "why_tests_cant": "All trees and texts; fixed points of the loop over pairs of texts.", "anchors": ["src/parser/text.rs: prepare_text 37-50, _prepare_text 52-65, prepare_text_children 93-249"]}
{"id": "C65", "title": "Every value is parsed back from what is written for it", "statement": "In a parsed document the text that is written for an attribute is parsed, on the same element, as the same value, or as the same reference with the same fallback; a value that was stored because a reference leads nowhere is stored again. Assumed is only that svgtypes reads the text it wrote for a number, length, colour, ... as that value, that references and paint keywords are read as written, and that the text has no markup.", "quantifier": "every XML tree, every attribute of every element of the parsed document", "why_tests_cant": "About 30 arms of the value parser against 18 kinds of written values, all texts.", "anchors": ["src/parser/mod.rs: _parse_svg_attribute_value 283-629, resolve_links 664-712; src/attribute_value.rs: write_buf_opt 240-311; src/writer.rs: write_escaped 239-251"]}
{"id": "C66", "title": "Printing a node shows it completely", "statement": "Display and Debug of a node never panic. For an element, Display gives its start tag: a reader of the text finds the tag name, the id and every attribute with its name and value, in order, and these are the names and values that to_string writes for the element. Debug shows in addition the ids of the nodes that link to it. A comment is shown as an XML comment with its text, a text node as its text.", "quantifier": "every state, every node, every way to write values", "why_tests_cant": "Any string can be a tag name, attribute name, id or value; nothing is escaped. Tests print a few elements with tame values.", "anchors": ["src/writer.rs: Debug/Display for NodeData 253-284, write_element_content 286-308; src/attributes.rs: Display 209-233; src/attribute.rs: Display 91-95; src/name.rs: Display 51-69"]}
{"id": "C67", "title": "The document can always be written", "statement": "to_string respects the preconditions of the XML writer: attributes are written only directly after a start tag, text only inside an element, end tags only for open elements, and all elements are closed at the end.", "quantifier": "every acyclic document reachable through the API; every parsed document", "why_tests_cant": "The XML writer panics on a violated precondition; which sequences of calls occur depends on the whole tree.", "anchors": ["src/writer.rs: write_dom 128-174, write_attributes 182-237"]}
{"id": "C68", "title": "White space is left alone exactly inside text elements", "statement": "The XML writer has its white space switch on for everything in the content of a text element (the end tag included), so that no indentation gets into the text, and off for everything else.", "quantifier": "every acyclic document reachable through the API", "why_tests_cant": "The switch is one global flag, the tree is arbitrary.", "anchors": ["src/writer.rs: write_dom 150-153, 168-171"]}
{"id": "C69", "title": "Edits through the *_mut methods keep the node consistent", "statement": "An assignment through text_mut, attributes_mut or linked_nodes_mut changes only what is assigned to, and leaves unique attribute names, right linked_nodes, and attributes that can be removed and set without a panic. (Refuted without restriction: get_mut allows a second attribute with the same name and links without bookkeeping, linked_nodes_mut allows to drop it, and then remove_attribute panics; text_mut gives elements a text. Proved for edits that do not touch links and names of other attributes; such edits are steps of the histories in all other claims.)", "quantifier": "every reachable state, every node, every assignment", "why_tests_cant": "Any value can be assigned at any time between other calls.", "anchors": ["src/node.rs: text_mut 183-185, attributes_mut 314-316, linked_nodes_mut 607-609; src/attributes.rs: get_mut 88-99, get_value_mut 122-133"]}
{"id": "C70", "title": "Several documents can share nodes", "statement": "In a program with several documents, nodes may be moved into the tree of another document and refer to nodes of another document. The links of all nodes describe one forest, back references count the referring attributes, remove_attribute never panics, every document stores exactly the nodes it made that are not detached, and remove_node of a live node finds its storage key. (Refuted: remove_node of a document uses the key of the node even if another document made the node, and then panics or throws out another node; proved if every document removes only subtrees of its own nodes.)", "quantifier": "every history of calls on any number of documents, every document", "why_tests_cant": "Any interleaving of calls on several documents with any nodes; tests use one document.", "anchors": ["src/document.rs: Document 61-87, remove_node 235-294, drain 303-330; src/node.rs: NodeData::storage_key"]}
{"id": "C71", "title": "Dropping a document leaves the others alone", "statement": "When a document is dropped, the nodes it does not store keep their data, the other documents keep their storage, and every call that worked on their nodes still works. (Refuted: a node of another document that refers to a node of the dropped one keeps its attribute while the back reference is cleared, so that remove_attribute panics afterwards; proved if no reference leads into the dropped document or out of it.)", "quantifier": "every history of calls on any number of documents", "why_tests_cant": "Any interleaving of calls on several documents.", "anchors": ["src/document.rs: Drop 371-379; src/node.rs: remove_attribute 563-589"]}
{"id": "C72", "title": "Dropping the document and all handles frees every node", "statement": "After the document and all handles of the program are dropped, reference counting frees every node, also those that were removed or never put into the tree. (Refuted: two removed nodes connected by a link under a name that is not an SVG name hold each other for ever; proved if links are only between nodes of the document, for all parsed documents, and exactly: all is freed if and only if the remaining references have no cycle.)", "quantifier": "every acyclic document reachable through the API; every parsed document", "why_tests_cant": "Leaks are invisible to tests of behaviour; any history of calls can leave any references.", "anchors": ["src/document.rs: Drop 371-379, remove_node and _remove 235-284; src/lib.rs: NodeData 182-190"]}
{"id": "C73", "title": "Nothing keeps a removed subtree alive", "statement": "After remove_node no node, no attribute and no storage of the document refers to a node of the removed subtree, so that it is freed with the last handle. (Refuted for links under names that are not SVG names; proved if all link attributes have SVG names. Exactly the nodes that hold or are the target of a link under another name are still referred to.)", "quantifier": "every acyclic document reachable through the API, every subtree without the root", "why_tests_cant": "Any references between the subtree and the rest.", "anchors": ["src/document.rs: remove_node and _remove 235-284"]}
{"id": "C74", "title": "The tree may be changed in a loop over children()", "statement": "A loop over children() whose body changes anything but keeps the children not yet visited in place visits exactly the children at the start, in order, and ends. In particular detaching, removing or moving away each visited child detaches, removes or moves all of them.", "quantifier": "every reachable state, every node, every body", "why_tests_cant": "The iterator keeps pointers into the tree that the body changes; tests cannot range over loop bodies.", "anchors": ["src/tree.rs: Children 461-514"]}
{"id": "C75", "title": "The tree may be changed in a loop over descendants()", "statement": "A loop over descendants() visits every node that was below the node at the start, also if visited nodes are detached in the loop. (Refuted: after a visited node is detached the loop goes on with the nodes below it and then ends, and all nodes after them are left out; this is proved for every position. Proved for loops that leave the tree as it is, whatever else they change.)", "quantifier": "every acyclic reachable state, every node, every body", "why_tests_cant": "Any position in any tree; the loop ends silently.", "anchors": ["src/tree.rs: Descendants 517-535, NodeEdge::next_item 563-588, Traverse 620-674"]}
{"id": "C76", "title": "A panic of a move leaves the tree intact", "statement": "If append, prepend, insert_after or insert_before panics and the program catches the panic, the tree is as before. (Refuted: detach takes the pointers of the moved node before it runs into the borrowed neighbour; p.append(first child of p) leaves p with one child that has no parent, and the other children are lost from the front. Proved in acyclic states: the assertion changes nothing; no panic changes data, storage, or links of nodes other than the moved node and one neighbour.)", "quantifier": "every reachable acyclic state, every pair of nodes, all four methods", "why_tests_cant": "Tests do not look at the document after a panic.", "anchors": ["src/tree.rs: append 238-266, prepend 273-298, insert_after 305-338, insert_before 345-381, NodeData::detach 386-412"]}
{"id": "C77", "title": "Unwinding after a panic does not abort", "statement": "If a move panics and the document is dropped while the stack is unwound, Drop for Document does not panic a second time (that would abort the process). (Refuted: c.insert_after(p) for the last child c of p makes p its own parent before it panics, and the drop panics, too. Proved for every other panic of the four methods in acyclic states.)", "quantifier": "every reachable acyclic state, every pair of nodes, all four methods", "why_tests_cant": "Drop runs on a half-changed tree; the test process itself would be aborted.", "anchors": ["src/tree.rs: insert_after 305-338, NodeData::detach 386-412; src/document.rs: Drop 371-379"]}
{"id": "C78", "title": "The exact conditions under which moves and detach panic", "statement": "For every pair of live nodes in every reachable state, cyclic ones included: a move of a node to itself fails the assertion; append panics on a RefCell iff the target or the moved node itself is one of the two nodes that detaching the moved node rewrites, or the target is its own last child; prepend the same with first child; insert_before iff ... or the reference node has no previous sibling and is its own parent; insert_after iff ... or the reference node has no next sibling and its parent is itself or the moved node; detach iff the node is its own parent and lacks a sibling on one side. In all other cases the call returns.", "quantifier": "every reachable state (also with cycles), every pair of live nodes, all five methods", "why_tests_cant": "The list of conditions must be exhaustive, also in states no sane test would build.", "anchors": ["src/tree.rs: append 238-266, prepend 273-298, insert_after 305-338, insert_before 345-381, NodeData::detach 386-412"]}
{"id": "C79", "title": "Exactly which calls create a cycle", "statement": "From an acyclic state, a call that returns leaves an acyclic state if and only if it is not a move of a node below itself (append/prepend: the target is not in the subtree of the moved node; insert_*: the moved node is not an ancestor of the reference node).", "quantifier": "every acyclic reachable state, every public call", "why_tests_cant": "Needs a proof in both directions for every call.", "anchors": ["src/tree.rs: append 238-266, prepend 273-298, insert_after 305-338, insert_before 345-381"]}
{"id": "C80", "title": "Every CSS style sheet of the document is applied in full", "statement": "The text of every style element whose type is text/css or missing is given to the CSS parser, in document order. (Refuted: only the first child of the element is looked at, so a comment in front of the text hides it, and a comment inside hides the rest. Proved: exactly the leading texts of those elements are used; this is all if each sheet is one piece of text.)", "quantifier": "every XML tree", "why_tests_cant": "Documents of any shape; ignored rules leave no trace.", "anchors": ["src/parser/mod.rs: resolve_css 746-763"]}
{"id": "C81", "title": "Moves panic exactly if a node they have to touch is borrowed by the caller", "statement": "If the caller holds borrows (the guards returned by attributes(), id(), text_mut() and so on), detach, append, prepend, insert_after and insert_before of two different nodes panic with a borrow error if the node itself, the moved node, one of the neighbours from which the node is cut off, or the neighbour it is put next to is borrowed. Otherwise they do exactly what they do without borrows. The nodes named in the documentation (both nodes and all adjoining ones) are therefore enough.", "quantifier": "every reachable state, every set of borrows, all pairs of nodes", "why_tests_cant": "The borrows of a caller and the shapes of the tree can be combined in unboundedly many ways.", "anchors": ["src/tree.rs: Node::detach/append/prepend/insert_after/insert_before 226-380, NodeData::detach 400-424"]}
{"id": "C82", "title": "Borrows of the caller are respected and otherwise have no effect", "statement": "With borrows held by the caller, every method either panics with a borrow error, and does so only if there is a borrow, or gives the result it gives without them; and if it returns, no borrowed node has been changed. remove_node returns only if no node of the subtree is borrowed, and dropping the document only if no stored node is borrowed.", "quantifier": "every reachable state, every set of borrows on existing nodes, every call", "why_tests_cant": "A method that depends on borrows does so only in rare combinations.", "anchors": ["src/node.rs; src/tree.rs; src/document.rs"]}
{"id": "C83", "title": "The documentation names all nodes whose borrow makes a method panic", "statement": "A method panics because of a borrow only if a node is borrowed that its documentation names, and in the way that it names. (Refuted: set_attribute and remove_attribute also touch the linked nodes, remove_node the linked nodes elsewhere, set_text and text_mut panic for shared borrows, has_parent reads the parent, svg_element the children of the root. Proved: the exact conditions for remove_attribute and set_attribute_checked.)", "quantifier": "every reachable state, every set of borrows, every element and attribute", "why_tests_cant": "Which nodes are touched depends on the old and the new value of the attribute.", "anchors": ["src/node.rs: 182-227, 285-298, 340-528, 560-590; src/document.rs: svg_element 178-200, remove_node 209-295"]}
{"id": "C84", "title": "A panic of a copy leaves a consistent document", "statement": "If copy_node panics, either the node is the root and nothing has happened, or it is an element and the document is in a state that calls without a panic could have produced: it has one additional node, without parent and children, that has the tag name and those attributes that come before the first link to a node without an id; all other nodes, their data and the tree are unchanged, except for the list of linking nodes of the targets. If copy_node_deep panics, the document is in such a state too, with some additional nodes.", "quantifier": "every reachable state, every node, every point at which the copy panics", "why_tests_cant": "The panic depends on the ids of nodes linked from anywhere in the copied subtree, and the code that runs before it changes the document at many points.", "anchors": ["src/document.rs: copy_node 333-348, copy_node_deep 353-368; src/node.rs: set_attribute 339-343, 458-528"]}
{"id": "C85", "title": "A call that panics has no effect", "statement": "If a call other than a move panics and the caller holds no borrows, the document is as before the call. (Refuted: copy_node of an element one of whose link targets has lost its id leaves a half-made copy in the storage, which is also listed as a user of the other targets. Proved: it holds for all calls that set or remove the text, the id, the tag name or an attribute.)", "quantifier": "every state, every call that sets or removes data", "why_tests_cant": "There are unboundedly many states and values; a test sees one panic at a time.", "anchors": ["src/document.rs: copy_node 333-348; src/node.rs: 182-298, 339-590"]}
{"id": "C86", "title": "A panic caused by a borrow leaves a consistent document", "statement": "If a call that sets or removes data panics because the caller holds a borrow, the document is consistent afterwards: every link has its back reference. (Refuted: remove_attribute removes the back reference before the attribute, so holding attributes() of the node leaves a link without back reference; set_attribute stores the link before the back reference, so holding id() of the target does too. In both cases later calls panic although nothing is borrowed any more. Proved: nothing has changed if neither the node nor the target of the new value is borrowed for reading; and the exact state for remove_attribute.)", "quantifier": "every state, every set of borrows, every call that sets or removes data", "why_tests_cant": "The combination of borrows, old values and new values is unbounded.", "anchors": ["src/node.rs: set_link_attribute 489-528, remove_attribute 563-587"]}
{"id": "C87", "title": "The attributes of an element are written under different names", "statement": "No two attributes of a start tag that is written have the same name, namespace declarations included; otherwise the output is not well-formed. (Refuted: an attribute set by its id and the same name given as a string coexist and are both written; and a parsed attribute with the local name xmlns in the SVG namespace becomes a second default namespace declaration. Proved: the exact condition, and that parsed documents meet it if no such attribute is there.)", "quantifier": "every reachable document, every element, every value writer", "why_tests_cant": "All sets of attribute names, by id or string, together with the id and the declarations.", "anchors": ["src/writer.rs: write_attributes 182-237; src/name.rs: 90-99; src/parser/mod.rs: 102-115"]}
{"id": "C88", "title": "A name that SVG knows is the same whether given as id or as string", "statement": "An element or attribute made with a known name as a string is treated like one made with the id: elements that show the same name have the same tag, and has_tag_name, has_attribute and svg_element find it. (Refuted: an element created by the name \"svg\" is written as svg, but is not the svg element and declares no namespace. Proved: for all nodes whose names are ids whenever they are known, in particular for all nodes of parsed documents.)", "quantifier": "every reachable document, every pair of nodes, every name", "why_tests_cant": "All names and nodes.", "anchors": ["src/name.rs: 20-109; src/document.rs: create_element 100-120, svg_element 195-203; src/node.rs: 240-298"]}
{"id": "C89", "title": "Attributes of different namespaces are kept apart", "statement": "An XML attribute is taken for an SVG attribute only if it has the namespace of that attribute, and is written with that namespace again. (Refuted: space=\"preserve\" acts as xml:space, and xml:lang is written as lang. Proved: without style sheets the result does not depend on the namespaces at all, as long as they are none, SVG, XLink or XML; and attributes of all other namespaces have no effect.)", "quantifier": "every XML document, every behaviour of the value parsers", "why_tests_cant": "All documents and all namespaces.", "anchors": ["src/parser/mod.rs: 102-115; src/writer.rs: 203-216"]}
{"id": "C90", "title": "Content that is not SVG leaves no trace", "statement": "Processing instructions, elements that are not known SVG elements (with everything in them), blank text outside text, tspan and tref, and namespaced attributes that are not known can be left out of the XML document without changing the result of parsing: the same document with the same node numbers, or the same error. (Refuted: a style sheet inside a dropped element still applies to the whole document, and a processing instruction hides the text of a style sheet. Proved: the result depends on the XML document only through the expected DOM; and the property for all documents whose style sheets have the same rules with and without that content, if selectors look at elements only through the functions of XmlNode; for attributes without condition on the style sheets.)", "quantifier": "every XML document, every behaviour of the value parsers and of the style sheet parser, every choice of content left out", "why_tests_cant": "All documents, and all subsets of the content in question; equality of the whole results.", "anchors": ["src/parser/mod.rs: 77-179, 714-763"]}
{"id": "C91", "title": "Stack needed by the recursive functions", "statement": "remove_node needs exactly as many nested calls as the subtree has levels, copy_node_deep one for each level below the node (at least one), drain one for each level it searches and the height of each subtree it removes, process_node as many as the XML tree has levels outside elements that are not SVG, and text processing one more than there are levels of elements (at most two more). With that much room the results are those of an unbounded stack; with less, a call that would succeed overflows the stack. The whole parser needs as many nested calls as the XML tree has such levels, or one more, and more than it has levels of elements. Hence for every stack size there are a document that cannot be parsed, and a parsed document on which remove_node, copy_node_deep and drain abort.", "quantifier": "every bound on the number of nested calls, every reachable state without cycles, every node and every closure that looks at the node; every XML document and every behaviour of the value parsers and of the style sheet parser", "why_tests_cant": "All depths; tests have a fixed stack and a deepest document, and an overflow aborts the test process.", "anchors": ["src/document.rs: 235-368; src/parser/mod.rs: 46-179; src/parser/text.rs: 37-65, 93-116, 251-259"]}
{"id": "C92", "title": "Saving, loading and saving again", "statement": "Documents that are the same, up to the numbering of nodes and the order of SVG attributes, are written with the same calls to the XML writer. Hence writing a document, parsing the result and writing again, any number of times, gives the same output every time. (The second sentence is refuted: the string `&lt;` in font-family is written as it is, read back as `<`, and the next output is not XML. Proved for parsed documents whose ids, texts, comments and values can be written without escaping and are read as they were written.)", "quantifier": "every two reachable states without cycles that hold the same document; every parsed document of that kind, every behaviour of the value parsers and writers, every number of rounds", "why_tests_cant": "All documents and all numbers of rounds; tests compare one or two outputs of sample files.", "anchors": ["src/writer.rs: 110-260; src/parser/mod.rs: 77-179"]}
{"id": "C93", "title": "The program is a plain machine on ordered forests", "statement": "Describe a document by nothing but an ordered forest of nodes that carry a type, a tag name, an id, a list of attributes and a text, and by the set of nodes stored in it; describe every call by one equation on these lists, or by the condition under which it panics. Then the program does exactly what this machine does: every history of the 18 calls that create, move, edit, reference, remove, drain and copy nodes, of assignments through text_mut and attributes_mut that leave references alone, and of handle drops, returns a state that shows the picture computed by the machine and the answer computed by it (the new node, the number of removed nodes, the error), or panics exactly where the machine does, in release and in debug builds. What the getters and iterators return, and what is written to XML, is a function of this picture.", "quantifier": "every history of calls on a new document, or from any reachable state without cycles; every predicate of drain on type, tag name, id and text; histories end with the first panic, with a handle to no node, or with a move of a node below itself", "why_tests_cant": "A refinement of all calls to one machine over all histories; tests compare a few states after a few calls.", "anchors": ["src/document.rs: create_element .. copy_node_deep 75-368", "src/node.rs: all of Node", "src/tree.rs: append .. insert_before, detach", "src/attributes.rs: insert, remove", "src/writer.rs: 110-260"]}
{"id": "C94", "title": "A refused document leaves nothing behind", "statement": "If the parser returns NoSvgElement, it has built exactly the nodes that are expected up to the first element on the top level (nothing after it), none of them linked, and when the partly built document is dropped on the way out every one of these nodes is freed.", "quantifier": "every XML document, every behaviour of the value parsers and of the style sheet parser", "why_tests_cant": "All refused documents; a leak or extra work on the error path is not visible in the returned error.", "anchors": ["src/parser/mod.rs: 46-179; src/document.rs: Drop for Document 371-379"]}
{"id": "C95", "title": "Parsing is a function of the XML tree", "statement": "The document that parsing gives is a value computed in five equations from the expected nodes (C32): number them in document order, leave out style elements, settle each reference in document order (it goes to the first node with that id, or is dropped, or gets its fallback), tidy the texts of each text root pair by pair, leave out texts of which nothing is left. Shape, order, node numbers, types, names, ids, attributes with their order and values, and texts are those of this value and no others; what is written afterwards depends on this value only, not on the build, the libraries or the XML tree otherwise. The nodes removed on the way are alone and not stored; the whole state is a picture in the sense of C93, so that all calls after parsing (load and edit) are known from it.", "quantifier": "every XML document that parses, every behaviour of the value parsers and of the style sheet parser, both builds", "why_tests_cant": "All documents; equality of whole documents, where tests compare written output of sample files.", "anchors": ["src/parser/mod.rs: 46-179, 664-712; src/parser/text.rs"]}
{"id": "C96", "title": "What root() and linked_nodes() return after any history", "statement": "Two things observable through the API depend on the calls made so far and not only on the document: the node that root() remembers and the order of linked_nodes(). Both follow a small machine beside the one of C93: append and prepend give the node what its new parent remembers (or the parent itself), the insertions what the sibling remembers, nothing else changes it; setting a reference makes the node the last user of its target, a reference that goes takes the first place of the node in the list, copies come last in document order. root() returns the remembered node, the node itself if there is none, and panics exactly when the remembered node is no longer stored. After parsing every node remembers the root and the users are in the order in which the references were settled. Two states with the same picture and the same extras cannot be told apart by any calls.", "quantifier": "every history of calls on a new document or on a parsed one that does not panic (which ones do is C93), both builds", "why_tests_cant": "The order depends on the whole history; histories are unbounded.", "anchors": ["src/tree.rs: 96-102, 238-385; src/node.rs: 500-526, 570-632; src/document.rs: 180-380; src/parser/mod.rs: 664-712"]}
{"id": "C97", "title": "It makes no difference when nodes are freed", "statement": "Nodes are reference counted, and a node goes when its last handle is dropped and nothing in the document holds it. Take any history of calls with drops of handles, and the same history in which every handle is kept. If the first returns or panics, so does the second. For every node that is left in the first one, both agree on type, names, id, attributes, text, storage, children, next sibling, descendants and users, on the answers of all further calls, and on the written text; the only differences are that a parent or a previous sibling outside the document may be gone and that root() may panic. So any two placements of the drops lead to the same document.", "quantifier": "every history of calls on a new or a parsed document, every placement of the drops", "why_tests_cant": "Histories and placements are unbounded; a test fixes one placement.", "anchors": ["src/tree.rs: 10-60, 90-150, 386-412; src/document.rs: 180-380"]}
{"id": "C98", "title": "Freeing nodes needs a bounded stack", "statement": "When the last reference to a node goes, the references it holds are dropped inside of its drop, and so on; every level takes stack. For some bound, no drop of a node leads to more drops inside of each other than that. False in general: a chain of removed nodes that were put together again is freed with one level per node; the number of existing nodes outside of the document is always a bound, and it is reached. It holds with the bound 1 (a freed node holds nothing at all) after all histories of calls on a new or parsed document that only move nodes stored in the document and only make references to stored nodes, by attributes with SVG names; and with the bound 2 for the drop of the whole document then, after which nothing stays behind.", "quantifier": "every history of calls on a new or a parsed document, every node", "why_tests_cant": "Histories and trees are unbounded; the stack overflows only for large ones.", "anchors": ["src/tree.rs: 1-60, 386-412; src/document.rs: 365-380"]}
{"id": "C99", "title": "The order of the XML attributes does not matter", "statement": "Two XML files that differ only in the order of the attributes of their elements give the same document, up to the order in which a node lists its attributes, and are written alike. False: `href` and `xlink:href` (and `space` and `xml:space`) are the same attribute for the parser, and the later one wins. It holds if attributes with the same local name keep their order, in particular if no element has two attributes with the same local name: same nodes with the same numbers, texts, references and order of users, and the same output, whatever the style sheets are.", "quantifier": "every XML tree, every order of its attributes, every library behaviour, both builds", "why_tests_cant": "Number of orders and trees is unbounded; references, style rules and text modes all depend on the attributes.", "anchors": ["src/parser/mod.rs: 77-271, 644-712; src/parser/text.rs; src/writer.rs: 200-330"]}
{"id": "C100", "title": "The name tables are what the generator makes of its lists", "statement": "ElementId::from_str and AttributeId::from_str accept exactly the non-empty lines of codegen/elements.txt and codegen/attributes.txt; the id of a name is the variant whose identifier the generator makes from the name (parts between -, _ and : joined, each with a capital, N before a leading digit); the variants are declared in the order of the lines, which is alphabetical without regard to case; no two names of a list get the same variant. to_enum_name follows that rule on every string. (In general two names can get the same identifier: a-b and aB.)", "quantifier": "every string, every id; every string for to_enum_name", "why_tests_cant": "All strings; the tables and the lists are compared as wholes, and no test looks at the lists.", "anchors": ["codegen/main.rs: 105-127, 168-202; codegen/elements.txt; codegen/attributes.txt; src/names.rs"]}
{"id": "C101", "title": "A reference has the form its attribute name demands", "statement": "set_attribute stores the value it is given. (Not so: a reference is re-made from the node and the attribute name, so a paint given for mask is stored as a plain reference without its fallback, and a link given for mask as url(#id).) In every reachable state a reference is a link if the attribute is href, a paint if it is fill or stroke, and a functional reference otherwise; so the writer writes #id for href and url(#id) for everything else, with a fallback after it only in fill and stroke. A value accepted by set_attribute is stored as given if and only if it has the form of the name. The conversion from (name, node) always makes the right form, that from (name, node, fallback) only for fill and stroke.", "quantifier": "every reachable state, every live node and attribute; every name, node and fallback", "why_tests_cant": "All histories; the tests set references only through the matching conversions.", "anchors": ["src/node.rs: 31-53, 458-531; src/attribute_value.rs: 278-300"]}
{"id": "C102", "title": "Freeing nodes while parsing", "statement": "The nodes that parse_svg takes out of the document (style elements, empty texts) are freed as soon as nothing refers to them. Whichever unreferenced nodes are freed at each point, parse_svg returns the same error or the same document as if it freed nothing: the same nodes with the same contents, relatives and users, the same written text; no panic. When it returns, exactly the nodes of the document and those removed nodes that refer to a node of the document are still in memory; dropping the document frees all of them. The same holds for remove_node and drain alone.", "quantifier": "every XML tree, every outcome of the value parsers, every reachable acyclic state (for remove_node and drain), every choice of the unreferenced nodes that are freed at each point", "why_tests_cant": "Depends on reference counts at every intermediate point; the tests never look at freed nodes.", "anchors": ["src/parser/mod.rs: parse_svg 46-75, resolve_links 664-712; src/document.rs: remove_node 235-295, drain 303-328; src/parser/text.rs: prepare_text 37-50"]}
{"id": "C103", "title": "References do not form rings", "statement": "Following references from element to element (from an element with a link attribute to the element it names) never leads back to the start, so that a program that follows references ends. The documentation says that linked nodes cannot reference each other or themselves; the code checks only the two ends of the new reference. In every reachable state there is no ring of one or two references, but for every n from 3 on there is a document with a ring of n references and no shorter one through the same element; the parser keeps rings of three, too.", "quantifier": "every history of calls, every node, every length of a ring", "why_tests_cant": "Rings of every length; the tests try rings of one and two elements.", "anchors": ["src/error.rs: 12-27; src/node.rs: 458-531; src/parser/mod.rs: 644-712"]}
{"id": "C104", "title": "Moves can be taken back", "statement": "After any sequence of append, prepend, insert_after, insert_before and detach that returns, putting the moved nodes back (each one detached and then inserted before the node that followed it, or else after the one before it, or else appended to its parent, the last moved node first) works without a panic and leads back to the state before. True for the tree, the content of all nodes, membership in the document, the written output, the users of every node in their order, and root() of all nodes that were not moved. False for root() of moved nodes: a node that had no parent, appended and detached again, keeps the root of the other tree.", "quantifier": "every reachable acyclic state, every sequence of moves (not below themselves)", "why_tests_cant": "Every state and every number of moves; putting a node back touches up to five other nodes, and a direct call may panic on borrowed neighbours.", "anchors": ["src/tree.rs: 222-381, 386-412"]}
{"id": "C105", "title": "Text processing neither joins nor splits words", "statement": "After prepare_text every element at which text processing starts, every element below it, every run of consecutive texts below it and every single text node has exactly the words it had before, in both xml:space modes and mixtures of them, where words are separated by the characters that str::trim takes for white space. (Counting only XML white space this is false: a witness joins two words at a no-break space. Between two neighbouring text elements no space is kept.)", "quantifier": "for all documents that can reach prepare_text, all text elements, all elements and runs of texts below them", "why_tests_cant": "The loop takes single spaces away at many borders and remembers the last text that is not blank; whether a word border is lost depends on all texts in between, so it needs an invariant over texts of any number and depth.", "anchors": ["src/parser/text.rs: prepare_text 37-65, prepare_text_children 93-249, collect_text and trim 251-283"]}
{"id": "C106", "title": "Independent calls commute", "statement": "Calls that make or move nodes (create_element, create_node, append, prepend, insert_after, insert_before, detach) and calls that change what one node carries (text, id, tag name, attributes) are independent: a change of content may be done after the next shape call instead, and in any history of such calls all changes of content may be left to the end. Two changes of content may be exchanged if neither call mentions the node that the other one changes. The results cannot be told apart by any observation; only the order in which linked_nodes lists the users may differ. Both conditions are needed: two elements that each ask (set_attribute_checked) to refer to the other end differently in the two orders, and the order of linked_nodes does differ.", "quantifier": "for every document reached by any history of the API without a cycle of strong references, and every history of calls of these two kinds that runs, whatever the number of exchanges", "why_tests_cant": "The number of interleavings is unbounded; a bug in which a move reads or rewrites content (or a setter touches tree pointers of another node) shows only for a particular interleaving. Tests run each sequence in the single order in which it was written.", "anchors": ["src/tree.rs: detach to insert_before 222-381; src/node.rs: set_text, set_id, set_tag_name, set_attribute, set_attribute_checked, set_attribute_if_none, remove_attribute 140-600"]}
{"id": "C107", "title": "Moves of different nodes commute", "statement": "Two calls among append, prepend, insert_after, insert_before and detach that move different nodes to different places, where neither place is given by the node that the other call moves, may be exchanged: if both orders run, every observation afterwards is the same, including root() and the order of linked_nodes. This holds even if the two places are neighbours. It is needed that both orders run (appending 2 to 1 runs, but not after the node between them was moved away), and that the places differ (two nodes appended to one parent are in the order of the calls).", "quantifier": "for every document reached by any history of the API without a cycle of strong references, all nodes and all pairs of such calls", "why_tests_cant": "There are unboundedly many shapes of the surroundings (neighbours, first and last children, nodes without parent); the pointers each call rewrites overlap when the places are neighbours, and tests run only one order.", "anchors": ["src/tree.rs: detach to insert_before 222-381"]}
{"id": "C108", "title": "A removal that a borrow stops can be repeated", "statement": "If remove_node or drain panics because the caller holds a borrow of a node, the document is in a state that complete calls also lead to; repeating the call without the borrow gives the document that a call without any borrow would have given.", "quantifier": "for all reachable acyclic documents, all nodes, all predicates that look at the node only, and all combinations of shared and mutable borrows that the caller may hold", "why_tests_cant": "The state after a caught panic depends on which of many steps of a recursive removal the borrow stops; every combination of borrows and every shape of tree would have to be tried.", "anchors": ["document.rs:235-328; node.rs:437-476; tree.rs:229-231, 386-412"]}
{"id": "C109", "title": "Copies never change existing nodes", "statement": "copy_node and copy_node_deep, whatever borrows the caller holds and whether they return, panic or do not end, leave every existing node as it was: its place in the tree, its content, and its references to and from other existing nodes. Only new nodes can be added to a list of linked nodes.", "quantifier": "for all reachable documents (with cycles too), all nodes, and all combinations of shared and mutable borrows that the caller may hold", "why_tests_cant": "A copy can stop after any of its steps, because of any borrowed node it meets; every tree, every combination of borrows and every point of failure would have to be tried.", "anchors": ["document.rs:333-368; node.rs:253-345; tree.rs:229-266, 386-412"]}
{"id": "C110", "title": "The characters of the output can be read and parsed back", "statement": "With any write options, the characters that are written for a document are an XML document (read by an independent character-level reader), which up to indentation is the one of C61; and if the document comes back in the sense of C62, then parsing these characters gives the same document again, which is written with the same characters.", "quantifier": "for all reachable trees without cycles (or parsed documents), all widths and kinds of indentation of elements and attributes, both quotes, and all ways to write values", "why_tests_cant": "It is about every document with every combination of options; texts, quotes and white space interact with the place in the tree and with the state of the writer, and a test can only compare chosen documents with chosen texts.", "anchors": ["document.rs:91-101; writer.rs:29-237; tests/writer.rs"]}
{"id": "C111", "title": "The attributes of two nodes can be exchanged", "statement": "attributes_mut of two nodes together with mem::swap exchanges their attribute lists. The document stays consistent: names are unique, linked_nodes mirror the references, and no later removal of an attribute panics or misses a reference. The same for attributes of one node that are brought into another order with iter_mut and mem::swap.", "quantifier": "for all reachable states and all pairs of existing nodes", "why_tests_cant": "Whether a later call panics depends on how often each node is referred to by either list; tests exchange a few lists, the claim is about all of them and all later removals.", "anchors": ["node.rs:314-316, 563-587; attributes.rs:190-192"]}
{"id": "C112", "title": "Saving and loading again and again comes to rest", "statement": "A document that comes back from its text but for white space in its texts can be saved and loaded any number of times, and after at most as many rounds as there is white space in its texts (spaces counted once, tabs and line ends twice) it is saved the same for ever; it is saved the same after the first round if and only if its texts are trimmed already.", "quantifier": "for all reachable trees without cycles (or parsed documents) that meet the assumptions of C62 except that on texts, all ways to write values, all sequences of rounds of saving and loading, however long", "why_tests_cant": "It is about infinite sequences of rounds on all documents. The trimming of texts looks at neighbouring texts in other elements, so a round can make white space removable that was not before, and how many rounds are needed depends on the document.", "anchors": ["parser/text.rs:28-283; parser/mod.rs:46-180; writer.rs:29-237"]}
{"id": "C113", "title": "CSS can be resolved by hand", "statement": "A document whose style sheets and style attributes are resolved by hand, each value written as an attribute of the element it applies to, and the style sheets taken out, gives the same document when parsed: the same elements, attributes, references and texts, and the same output.", "quantifier": "for all XML trees, all style sheets and selectors, all CSS and value parsers (for which the empty style sheet has no rules), both builds, all ways to write values", "why_tests_cant": "It compares two documents for every pairing of style sheets, selectors, style attributes and attributes. Tests compare single documents with one rule or one style attribute.", "anchors": ["parser/mod.rs:77-271; parser/mod.rs:644-662; parser/mod.rs:744-763; docs/preprocessor.md:15-27; docs/preprocessor.md:90-136"]}
{"id": "C114", "title": "Removals: order and repetition do not matter", "statement": "Removing several nodes one after the other never panics, and the result depends only on the set of nodes that go: not on the order of the calls, not on nodes that are inside others of the list, not on nodes that are removed twice. No getter, iterator, writer and no later call tells the results apart. `drain` is the same as removing its matches one by one in any order.", "quantifier": "for all reachable states without a node below itself, all lists of nodes, all orders and repetitions, all later histories of calls, all predicates of drain", "why_tests_cant": "It compares two histories of calls of any length for every document. Tests remove one node, or drain one small document, and do not call remove_node on a node that is gone.", "anchors": ["document.rs:235-295; document.rs:296-328; CHANGELOG.md:39; attributes.rs; node.rs (detach)"]}
{"id": "C115", "title": "Only the last of several calls counts", "statement": "If a text, id, tag name or attribute of a node is set again later, the earlier call may be left out of the history; if a node is moved twice, the first move may be left out. No getter tells the difference, except that linked_nodes() may have another order if the earlier call set a reference. A node that is detached first can be moved to every place that is not inside it.", "quantifier": "for all reachable states without a node below itself, all pairs of such calls, all calls in between that make or move nodes or set parts of nodes to something that is no reference, all later calls", "why_tests_cant": "It compares two histories of any length; tests check single calls, and do not set or move anything twice.", "anchors": ["node.rs (set_text, set_id, set_tag_name, set_attribute, remove_attribute); attributes.rs (insert, remove_impl); tree.rs:229-412"]}
{"id": "C116", "title": "A copy that is removed again leaves no trace", "statement": "If a node, or a node with all that is below it, is copied and the copy is removed, the removal succeeds and every getter, every iterator and the writer give for the nodes that were there before what they gave before, also linked_nodes().", "quantifier": "for all reachable states without a node below itself, all nodes, both kinds of copies", "why_tests_cant": "It needs the whole state before and after two calls that walk whole subtrees; tests look at the copy, not at the other nodes, and use no references under unknown names.", "anchors": ["document.rs:235-300 (remove_node), document.rs:333-374 (copy_node, copy_node_deep)"]}
{"id": "C117", "title": "A copy is written like the original, without ids", "statement": "If a node of the document is copied with copy_node_deep and the copy is inserted behind the original, both calls succeed and the writer makes the same calls as before, with the calls for the original repeated once directly behind them, without the id attributes.", "quantifier": "for all reachable states without a node below itself, all nodes of the document that can be copied, all ways to write values", "why_tests_cant": "It relates the whole output before and after, for subtrees of any size anywhere in the document, including the namespace declarations, which depend on all nodes below.", "anchors": ["document.rs:333-374 (copy_node, copy_node_deep), node.rs insert_after, writer.rs:128-237"]}
{"id": "C118", "title": "What is taken out of the document disappears from the output, and nothing else", "statement": "If a node of the document is detached, or removed with remove_node while no other node of the document refers into its subtree, the call succeeds and the writer makes the same calls as before without one contiguous block, the calls for the node and what is below it. Only the declaration of the namespace xlink may go as well, and it goes exactly if the subtree held the last href below the top-level svg element.", "quantifier": "for all reachable states without a node below itself, all nodes of the document but the root, all ways to write values", "why_tests_cant": "It relates the whole output before and after, for subtrees of any size anywhere in the document, including the namespace declarations, which depend on all nodes below.", "anchors": ["document.rs remove_node, node.rs detach, writer.rs:128-237"]}
{"id": "C119", "title": "What a node has depends on its type", "statement": "A node that is not an element has no tag name, no id and no attributes, and no attribute refers to it; an element has no text. (Refuted: release builds let a comment have a tag name, an id and attributes, and text_mut gives an element a text in every build. Proved: the first half in debug builds and for parsed documents in all builds, the second half for all calls of debug builds.)", "quantifier": "for all reachable states of debug builds, all histories of calls of debug builds, all parsed documents of both builds, all nodes", "why_tests_cant": "It is an invariant over all histories, including copies, removals and edits, that rests on assertions scattered over five methods.", "anchors": ["node.rs:165-230, 277-300, 440-490; document.rs create_element, create_node; parser.rs"]}
{"id": "C120", "title": "Release builds do what debug builds do", "statement": "Apart from the failure of a debug_assert!, builds with and without debug assertions behave alike: every call, and every history of calls, gives in a release build the same result as in a debug build, also the same panic, unless a debug_assert! fails. Parsing gives the same document or the same error in both builds, without exception. Writing gives the same output.", "quantifier": "for all states (not only reachable ones), all calls and histories of calls whose drain conditions do not depend on the build, all parser inputs, all ways to write values", "why_tests_cant": "Tests run in one build only; that the assertions have no other effect and that the parser never trips one must be shown for all inputs.", "anchors": ["node.rs:193, 224, 288, 459, 480; tree.rs:259, 263, 286, 292, 319, 367; parser.rs; writer.rs"]}
{"id": "C121", "title": "has_parent and is_svg_element mean what they say", "statement": "has_parent is true exactly for the children of nodes other than the root of the document; so in the document it is false exactly for the top-level nodes. is_svg_element is true exactly for elements whose tag name is one of the ids; in debug builds the tag name alone decides, and in a parsed document exactly the elements are SVG elements.", "quantifier": "for all reachable states, all nodes, all parsed documents", "why_tests_cant": "has_parent looks at the type of the parent, so that it is about the root of this document depends on no other node ever having that type, in any history.", "anchors": ["node.rs:102-107, 234-243"]}
