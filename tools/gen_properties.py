#!/usr/bin/env python3
"""Writes ../properties.jsonl.  Kept as a script so that the list stays easy to edit."""
import json, os
T='src/tree.rs'; D='src/document.rs'; N='src/node.rs'; A='src/attributes.rs'; AV='src/attribute_value.rs'
AT='src/attribute_type.rs'; ET='src/element_type.rs'; NM='src/names.rs'; P='src/parser/mod.rs'; X='src/parser/text.rs'; W='src/writer.rs'
Q='src/name.rs'
P_=[]
def p(i,title,statement,quantifier,why,*anchors):
    P_.append(dict(id=i,title=title,statement=statement,quantifier=quantifier,why_tests_cant=why,anchors=list(anchors)))

HIST='every finite history of public calls (node creation, tree moves, attribute edits, removal, draining, copying, handle drops) in any order on any number of nodes'
p('C01','Navigation pointers stay mutually consistent',
  'After any history of API calls that did not panic, parent(), first_child(), last_child(), previous_sibling() and next_sibling() of all live nodes describe one ordered forest: x is a child of p exactly if p is the parent of x, next and previous sibling are inverse to each other, siblings share the parent, first/last child are the two ends of the child sequence, and no node occurs twice.',
  HIST,'The number of histories is unbounded and each call patches up to five pointers in up to four nodes; a missed patch shows only for particular neighbourhoods.',
  f'{T}: Node::append, prepend, insert_after, insert_before, NodeData::detach',f'{D}: remove_node, drain, copy_node_deep')
p('C02','append/prepend/insert_before/insert_after move the node to the stated place and nothing else',
  'If the call returns, the moved node is taken out of its old sibling sequence and put last / first / directly before / directly after in the target sequence, its parent is the target parent, its own children come along unchanged, and the child sequence of every other node keeps its order and members.',
  'every consistent forest, every pair of nodes in it','Effects on all other nodes and all positions (first, middle, last, only child, parentless siblings) cannot be enumerated.',
  f'{T}: Node::append 238-266, prepend 273-298, insert_after 305-338, insert_before 345-381')
p('C03','detach isolates exactly one node',
  'After detach() the node has no parent and no siblings, keeps its children, and every other sibling sequence is the old one without that node; a second detach() changes nothing.',
  'every consistent forest, every node','Same as C02.',f'{T}: Node::detach, NodeData::detach 386-412')
p('C04','Tree moves on two different unborrowed nodes do not panic',
  'With no RefCell guard held by the caller, append/prepend/insert_before/insert_after panic only when the two nodes are the same node, as their documentation says. (The model refutes this; the exact panic condition is established instead.)',
  'every consistent forest, every pair of nodes, debug and release builds','Panics depend on adjacency of the two nodes; only a proof shows that a listed set of conditions is exhaustive.',
  f'{T}: Node::append, prepend, insert_after, insert_before, detach')
p('C05','The structure stays a forest (no node becomes its own ancestor)',
  'After any history of calls no node is its own ancestor, so every traversal terminates. (Refuted for moves of a node below its own descendant; proved for all histories that never do that.)',
  HIST,'Acyclicity is a global, inductive property of arbitrary histories.',f'{T}: Node::append, prepend, insert_after, insert_before')
p('C06','children() is a correct double-ended iterator',
  'For any interleaving of next() and next_back(), children() behaves as a double-ended queue holding the child sequence: every child is yielded exactly once, in order from each side, then None forever.',
  'every consistent forest, every node, every finite interleaving of next/next_back','All interleavings on all widths.',f'{T}: Children::next, next_back, finished')
p('C07','traverse() and descendants() visit the subtree in document order',
  'traverse() yields for every node of the subtree one Start and one End edge, properly nested, in document order, also when consumed from both ends in any interleaving; descendants() yields every node of the subtree exactly once, in pre-order, starting with the node itself, and terminates.',
  'every finite tree in a consistent forest, every start node, every interleaving','Unbounded depth/width and all interleavings.',f'{T}: Traverse, NodeEdge::next_item, previous_item, Descendants')
p('C08','ancestors(), preceding_siblings(), following_siblings() are exact',
  'ancestors() yields the node, its parent, ... up to the parentless node and ends; preceding_siblings()/following_siblings() yield the node and then all siblings before it (nearest first) / after it.',
  'every finite tree in a consistent forest, every node','Unbounded depth/width.',f'{T}: Ancestors, PrecedingSiblings, FollowingSiblings')
p('C09','root() returns the topmost ancestor',
  'root() of any node is the last node of its ancestors() and never panics. (Refuted: the cached root is not updated for descendants of a moved node nor by detach(); proved for histories in which every moved node is childless and nothing is detached, as the parser does.)',
  HIST,'The failure needs a specific order of appends; absence of failure for top-down construction is an inductive fact.',f'{T}: Node::root 96-101, append 246, prepend 280, insert_after 312, insert_before 353, detach')
p('C10','Tree moves never touch node data and data edits never touch the tree',
  'append/prepend/insert/detach leave type, tag name, id, text, attributes, linked nodes and document membership of all nodes unchanged; set_id/set_text/set_tag_name/set_attribute/remove_attribute leave all tree relations unchanged.',
  'every state, every operation','A frame property over all nodes and fields.',f'{T}: append..detach',f'{N}: set_id, set_text, set_tag_name, set_attribute_checked, remove_attribute')
p('C11','Attribute names are unique per node',
  'After any history of API calls no node has two attributes with the same name.',HIST,'Invariant over histories.',f'{A}: Attributes::insert, remove',f'{N}: set_attribute_checked')
p('C12','set_attribute is last-write-wins and affects only that attribute',
  'After a successful set_attribute_checked(name, v): has_attribute(name) holds, the stored value is v (links re-tagged by attribute name: href as Link, fill/stroke as Paint, others as FuncLink), all other attributes keep value and relative order, the written attribute is last, and no attribute of another node changes.',
  'every state satisfying the link invariant, every node, every attribute','All prior contents and all value kinds.',f'{N}: set_attribute_checked_impl 458-477, set_simple_attribute, set_link_attribute')
p('C13','remove_attribute removes exactly that attribute',
  'After remove_attribute(name) the node has no such attribute, all its other attributes keep value and order, no attribute of another node changes, and removing an absent attribute changes nothing.',
  'every state, node and name','All prior contents.',f'{N}: remove_attribute 563-587',f'{A}: Attributes::remove')
p('C14','set_attribute_if_none never overwrites',
  'If the node has the attribute already, set_attribute_if_none changes nothing at all; otherwise it equals set_attribute.',
  'every state, node and attribute','All prior contents.',f'{N}: set_attribute_if_none 547-554')
p('C15','A rejected link leaves everything unchanged, and links are rejected exactly in the documented cases',
  'set_attribute_checked returns ElementMustHaveAnId iff the target id is empty, ElementCrosslink iff the target has an id and (ids are equal or the target already links to this node), and on any error the whole document state is unchanged; values without a node are always accepted.',
  'every state satisfying the link invariant, node and attribute','All link configurations.',f'{N}: set_link_attribute 489-528')
p('C16','linked_nodes mirrors link attributes exactly',
  'After any history, for all nodes a and b, the number of times a occurs in b.linked_nodes() equals the number of attributes of a whose value refers to b; hence uses_count() is the number of referring attributes and is_used() is true iff there is one.',
  HIST,'The back references are maintained by hand in three places; a leak shows only after particular overwrite/remove orders.',f'{N}: set_link_attribute, remove_attribute, linked_nodes, is_used, uses_count')
p('C17','remove_attribute never hits its unwrap()',
  'In every state reachable through the API, remove_attribute (and every set_attribute of a plain value on an element) returns without panicking.',
  HIST,"The code comment says \"this code can't panic, because we know that such node exist\"; that is an invariant over all histories.",f'{N}: remove_attribute 578-580')
p('C18','No element links to itself and no two elements link to each other',
  'After any history no attribute of a node refers to that node, and there are no two nodes that refer to each other by attributes.',
  HIST,'Depends on the order in which links and ids are set.',f'{N}: set_link_attribute 499-507')
p('C19','remove_node leaves no reference to a removed node',
  'After remove_node(n), no attribute of any remaining node refers to n or to a node of its subtree, no removed node has link attributes, and no linked_nodes list mentions a removed node. (Refuted for links stored under a non-SVG attribute name; proved when all link attributes have SVG names.)',
  'every reachable state with a finite subtree','All link topologies between removed and remaining nodes.',f'{D}: _remove 240-295')
p('C20','remove_node takes the whole subtree out and nothing else',
  'After remove_node(n): every node of the subtree is detached from the document (is_detached), has no parent, siblings or children; every other node keeps its place, i.e. the remaining forest is the old one without the subtree; and the call does not panic.',
  'every reachable state with a finite subtree','Unbounded subtrees; removal happens while an iterator over the children is live.',f'{D}: remove_node, _remove')
p('C21','drain removes exactly the topmost matching descendants and counts them',
  'drain(root, f) for a predicate on type/tag/text/id removes every descendant of root for which f holds (with its subtree), keeps every other node in its place, never removes root, and returns the number of matching nodes that are not inside another removed node.',
  'every finite tree, every predicate on stable node data','The walk removes nodes it is walking over.',f'{D}: drain, _drain 311-328')
p('C22','copy_node copies tag and attributes but not the id',
  'copy_node(n) of an element returns a new parentless node with the same tag name, the same attributes in the same order with equal values, empty id, no linked nodes; n and its neighbourhood are unchanged except that link targets gain one use per copied link. It panics iff a link target has an empty id or n is a document root.',
  'every reachable state, every node','All attribute lists and link targets.',f'{D}: copy_node 333-348')
p('C23','copy_node_deep builds an isomorphic tree',
  'copy_node_deep(n) returns the root of a new tree of fresh nodes with the same shape, types, tags, texts and attributes as the subtree of n, all ids empty; the source tree is unchanged. It panics exactly if the subtree contains the document root or an element that refers to a node without an id.',
  'every reachable state with a finite subtree','Unbounded subtrees.',f'{D}: copy_node_deep, _make_deep_copy 359-368')
p('C24','Document membership bookkeeping is exact',
  'A node is stored by the document from creation until remove_node takes it; is_detached() tells exactly which; storage slots are never shared and are reused after removals, and no removal ever uses an invalid key or evicts another node.',
  HIST,'Slot reuse after removals makes key mix-ups history dependent.',f'{D}: create_element, create_node, _remove 288-294',f'{N}: is_detached 161')
p('C25','Dropping the document breaks all reference cycles among its nodes',
  'After the document is dropped every node it still stored has no attributes, no linked nodes, no parent and no siblings, and no stored node is the child of any stored node, so no stored node keeps another one alive; dropping never panics.',
  'every reachable acyclic state','All link/tree topologies.',f'{D}: Drop for Document 371-379')
p('C26','svg_element returns the first svg child of the root',
  'svg_element() is the first child of the document root whose tag is svg, or None if there is none.',
  'every consistent state','All child sequences.',f'{D}: svg_element 195-203')
p('C27','Element and attribute names round-trip',
  'from_str(as_str(id)) = Some(id) for every ElementId and AttributeId, and as_str never panics.',
  'every id of both enums (whole table, through the real hash)','Would be testable id by id, but is needed as a lemma and is checked here through the model of the hash.',f'{NM}: Map::get, Map::key, hash, get_index, split, displace')
p('C28','from_str is sound for every string and never panics',
  'For every string s: from_str(s) does not index out of bounds or overflow, and if it returns Some(id) then as_str(id) = s; so from_str succeeds exactly on the listed names and different ids have different names.',
  'every string (any length, any characters)','Infinite input domain; index computation uses u32 arithmetic that would panic on overflow in debug builds.',f'{NM}: Map::get 862-875, get_index 890-894, displace 909')
p('C29','Category predicates are consistent with each other',
  'basic shapes are shapes, shapes are graphics, text content children are text content, gradients are paint servers, paint servers are referenced; inheritable attributes are presentation attributes; fill and stroke attributes are presentation attributes; no attribute is both fill and stroke; nodes with non-SVG tag names are in no category.',
  'every id, every node','Finite, but the node level statements quantify over all nodes.',f'{ET}',f'{AT}')
p('C30','Default values are never links and only exist for presentation attributes',
  'Attribute::new_default(id) returns an attribute with that very id whose value does not refer to a node; it returns Some only for presentation attributes; setting it never fails.',
  'every attribute id, every node and state','Combination with arbitrary states.',f'{AV}: default_value 166-236','src/attribute.rs: new_default')
p('C31','A parsed document starts with svg',
  'If parsing succeeds, the first element child of the root is an svg element and svg_element() returns it; if the first SVG element at the top level is not svg, or there is none, the result is NoSvgElement.',
  'every XML tree','All XML inputs.',f'{P}: parse_svg 46-75, process_node 167-176')
p('C32','The DOM tree mirrors the SVG part of the XML tree',
  'Before link and text processing the DOM tree is the XML tree with exactly these nodes dropped: elements outside the SVG namespace or with unknown name (with their subtrees), processing instructions, and whitespace-only text outside text/tspan/tref; order, nesting, tags, ids, comments and texts are kept.',
  'every XML tree, every outcome of the value parsers','All XML inputs.',f'{P}: process_node 77-179')
p('C33','style, class and id never show up as attributes after parsing',
  'No node of a parsed document has an attribute named style, class or id, and no style element is left in the tree.',
  'every XML tree','All XML inputs and style sheets.',f'{P}: parse_svg_attribute 189-199, parse_svg 68')
p('C34','Style precedence: style attribute over style sheet over presentation attribute',
  'For a presentation attribute the parsed value is the last valid one in the order: presentation attributes, matching style sheet rules, style attribute. (Refuted: references are deferred, so fill="url(#a)" beats style="fill:red"; proved when no value of that attribute is a reference. Exactly: the last reference that is not dropped, else the last valid value.)',
  'every element, rule list and style attribute','All combinations of sources.',f'{P}: process_node 102-130, parse_svg_attribute_value, resolve_links')
p('C35','Links resolve to the first element with that id, or to the documented fallback',
  'Every collected reference is resolved against the first node in document order with that id; an accepted reference becomes a link to that node; an unresolvable paint takes its fallback, fill becomes none, href becomes the text "#id", other references the text "url(#id)"; self and mutual references are dropped without any change.',
  'every document and reference list','All id/reference topologies.',f'{P}: resolve_links 664-712')
p('C36','Text preprocessing never panics',
  'prepare_text returns for every DOM tree produced by process_node: no byte slicing off a char boundary, no unwrap on a missing parent, no index out of range.',
  'every tree, every text content (any Unicode), every xml:space assignment','Byte level slicing on arbitrary Unicode text.',f'{X}: remove_first, prepare_text_children 93-249')
p('C37','No empty text node survives parsing',
  'After prepare_text no text node in the tree is empty, and no non-text node was removed by it.',
  'every tree','All texts.',f'{X}: prepare_text 48-49')
p('C38','trim normalises whitespace',
  'trim(text) contains no CR, LF or TAB; with xml:space=default it has no two adjacent spaces and is the input with whitespace runs collapsed; with preserve it has the same length and differs only in CR/LF/TAB replaced by space; trimming twice equals trimming once.',
  'every text, both modes','All texts.',f'{X}: trim 261-283')
p('C39','All text under processed text elements is normalised',
  'After parsing, no text node contains CR, LF or TAB. (Refuted when an element has a text child but its first child is not text; proved for all texts below an element whose first child is text; and the result has no such character exactly if the texts below no such element had none before.)',
  'every tree','All mixed content shapes.',f'{X}: _prepare_text 52-65, prepare_text_children 93-104')
p('C40','xml:space bookkeeping leaves no trace',
  'prepare_text leaves the attribute list of every node exactly as it was: helper xml:space attributes are all removed again, existing ones are kept.',
  'every tree','Helper attributes are set at three places and removed from a worklist.',f'{X}: prepare_text 39-46, get_xmlspace, set_xmlspace')
p('C41','Opacity-like values are clamped to [0,1]',
  'Whatever number is written, a parsed opacity, fill-opacity, flood-opacity, stroke-opacity, stop-opacity or k1..k4 number is between 0 and 1, and equals the written number if that is within the range.',
  'every number (including infinities)','All numbers.',f'{P}: f64_bound 273-281, _parse_svg_attribute_value 366-388')
p('C42','CSS can only set presentation attributes and transform',
  'Style sheet rules and style attributes can only change presentation attributes or transform of an element; every other attribute is the one given as XML attribute; unknown property names are ignored.',
  'every element, rule list, style attribute','All CSS inputs.',f'{P}: parse_css_attribute_value 233-269, parse_style_attribute 644-662')
p('C43','The marker shorthand sets the three marker properties',
  'A marker declaration is treated as marker-start, marker-mid and marker-end. (Holds for style sheet rules; refuted for the style attribute, which sets a marker attribute instead.)',
  'every marker value','All values, both CSS sources.',f'{P}: parse_css_attribute_value 251-263, parse_style_attribute 655')
p('C44','A parsed document satisfies all DOM invariants',
  'The document returned by parsing has a consistent acyclic tree, exact membership bookkeeping, exact link bookkeeping, no self or mutual links, unique attribute names, and parsing itself never panics.',
  'every XML tree, every outcome of the value parsers','All XML inputs.',f'{P}: parse_svg')
p('C45','Written XML is balanced and follows the tree',
  'The writer opens and closes exactly one element per element node of the tree, properly nested and in document order, and writes each comment and text node once, in place.',
  'every finite tree','Unbounded trees.',f'{W}: write_dom 128-174')
p('C46','Every attribute is written once, in the documented order',
  'For each element the writer emits the namespace declarations (only on the svg element at the top, xlink only if some element uses it), then id (if not empty), then all SVG attributes sorted by AttributeId, each exactly once, then all other attributes in insertion order, each exactly once; only a unicode attribute with a non-string value is left out.',
  'every attribute list with unique names','All attribute lists.',f'{W}: write_attributes 182-237')
p('C47','xlink is declared whenever it is used',
  'In a document whose only top-level element is svg, xmlns:xlink is written on that element iff some element has an href attribute, so no xlink:href is written without the declaration. In every document, xmlns:xlink is written on exactly those nodes called svg right below the root that have an href on themselves or below. (Refuted for documents whose top-level element is not svg.)',
  'every finite tree','Unbounded trees.',f'{W}: write_attributes 188-197')
p('C48','unicode values survive escaping',
  'Decoding the numeric character references written for a unicode attribute gives back the original string, for every string that does not start with "&#"; strings starting with "&#" are written verbatim.',
  'every string','All Unicode strings.',f'{W}: write_escaped 239-251')
p('C49','Serialised references follow the target id',
  'A link attribute is always written with the current id of its target; after target.set_id(new) every reference to it is written with the new id without touching the referring elements.',
  'every state','All link topologies.',f'{AV}: write_buf_opt 278-300')
p('C50','After parsing, uses_count counts only elements of the document',
  'Every node in the linked_nodes list of a node of a parsed document is itself in the document tree. (Refuted: references collected inside style elements are resolved after those elements were removed; proved when no reference is collected inside a style element.)',
  'every XML tree','All XML inputs.',f'{P}: parse_svg 66-70, resolve_links')
p('C51','Default white space is collapsed over the whole text element',
  'Where no xml:space="preserve" applies, the text of a processed element (all its text nodes in document order, including those inside nested elements) is exactly the written text with CR, LF, TAB turned into spaces, runs of spaces (also across element borders) reduced to one, and no space at either end. (Refuted: with two text nodes a space at the start of the first keeps the one at the end of the second; proved under conditions on blank texts.)',
  'every tree, every text','Unbounded number of text nodes at all depths and all texts; the pairwise loop carries state.',f'{X}: prepare_text_children 93-148, process_text_nodes 154-238, trim 261-283')
p('C52','xml:space="preserve" keeps every character',
  'A text node whose element is in preserve mode keeps all its characters (CR, LF, TAB become spaces). (Refuted: the final space is dropped if the last text of the element turns out empty; proved that this is the only loss.)',
  'every tree, every text','All positions of preserve elements among default ones.',f'{X}: process_text_nodes 160-231')
p('C53','Text processing loses only spaces',
  'For every node, the text after processing has exactly the characters of the text before other than SP, CR, LF, TAB, in the same order; every removed node is a text node of only these characters.',
  'every tree, every text','All texts, all trees.',f'{X}: prepare_text 31-50, process_text_nodes, trim')
p('C54','xml:space is inherited',
  'A text node is normalised in the mode that the nearest xml:space attribute on its ancestors gives. (Refuted: an element without the attribute takes the mode of the outermost processed element, skipping elements between; proved otherwise. Exactly: the mode used is always that of the parent\'s own attribute, or else that of the outermost processed element.)',
  'every tree','All placements of the attribute on a path.',f'{X}: get_xmlspace 67-78, prepare_text_children 93-104')
p('C55','An element with a single text node',
  'If a processed element has exactly one text node, that text becomes: in default mode the collapsed text without spaces at the ends, in preserve mode the text with CR, LF, TAB turned into spaces.',
  'every tree, every text','All texts.',f'{X}: prepare_text_children 114-141')
p('C56','Selectors see the true surroundings of an element',
  'While a style sheet is applied, the name, attributes, parent element and preceding sibling element that a selector asks for are those of the element in the XML tree; in particular :first-child holds exactly for elements with no element before them. (Refuted for the preceding sibling, assuming that roxmltree::Node::prev_siblings starts at the node itself as documented: an element is taken as its own predecessor and :first-child never matches.)',
  'every XML tree, every element','All positions in all trees.',f'{P}: XmlNode 714-744')
p('C57','Parsed values have the type of their attribute',
  'In a parsed document every SVG attribute has a value of one of the types listed for that attribute (a width is a length, fill is none, inherit, currentColor, a colour or a paint reference, ...); number lists, length lists and paths are not empty; offset has no unit or a percentage.',
  'every XML tree, every outcome of the value parsers','270 attributes, about 30 arms, all texts.',f'{P}: _parse_svg_attribute_value 283-629, resolve_links 664-712')
p('C58','Default values have a type that parsing gives',
  'AttributeValue::default_value(id) is a value that the parser can produce for this attribute. (Refuted for stroke-miterlimit, a length instead of a number, and glyph-orientation-horizontal, a text instead of an angle; proved for all others.)',
  'every attribute','The two tables are in different files.',f'{AV}: default_value 166-236; {P}: _parse_svg_attribute_value')
p('C59','inherit is recognised on every presentation attribute',
  'The value "inherit" of a presentation attribute is parsed as AttributeValue::Inherit. (Refuted for alignment-baseline, clip, cursor and font; proved for the other 57.)',
  'every presentation attribute, every element','The two tables are in different files.',f'{P}: _parse_svg_attribute_value 283-629')
p('C60','White space around a value is ignored',
  'Values that differ only in leading and trailing white space give the same result, for every attribute except unicode, whose value is taken as it is.',
  'every attribute, element and text','All texts.',f'{P}: _parse_svg_attribute_value 294-298')
p('C61','The output is well-formed XML and shows the document',
  'For a parsed document the sequence of writer calls is a well-formed XML document; read with namespaces, it has the same elements (in the SVG namespace, with the same names, ids and attributes), texts and comments in the same places. (Refuted: string values are written without escaping, so a `<` in font-family breaks the output; proved for documents whose names are SVG names and whose ids, texts, comments and written values are free of markup.)',
  'every reachable document, every value writer, both quotes','All trees, attributes and texts; an independent XML reader is the specification.',f'{W}: write_dom 128-180, write_attributes 182-237, write_escaped 239-251')
p('C62','Writing and parsing again gives the same document',
  'Parsing the output (indented or not) gives a document with the same shape, node types, tag names, ids, texts, comments and attribute values, in which every reference leads to the node at the same place as before. (Refuted: a string value with the text of a character reference comes back as that character; a second parsing can remove a space from text that the first one left; proved for documents whose texts need no processing, and up to text processing for all documents, assuming that each single written value is parsed back to itself.)',
  'every reachable document, every XML document equal to the output up to indentation','Composition of writer, reader, parser and link resolution over all documents.',f'{W}: write_dom 128-237; {P}: parse_svg 46-110, resolve_links 664-712')
p('C63','References lead to the first element with the id',
  'In a parsed document every stored reference leads to the first node of the document, in document order, that has the id of its target; the target is an element, its id is not empty and is not the id of the referring element.',
  'every XML tree, every outcome of the value parsers','All documents, duplicate ids, removed style and text nodes.',f'{P}: resolve_links 664-712')
p('C64','Text that is normal is left alone; processing is idempotent',
  'Text processing changes nothing exactly if the texts are normal: in each text root no text is empty, each is collapsed in its mode, no border between two texts and no outer end has a superfluous space. The result of text processing is normal, so that processing it again changes nothing. (The second part is refuted: a blank first text is removed and makes an inner element a text root of its own; proved if the first text of every text root is visible and C51 applies.)',
  'every document that the parser gives to prepare_text','All trees and texts; fixed points of the loop over pairs of texts.',f'{X}: prepare_text 37-50, _prepare_text 52-65, prepare_text_children 93-249')
p('C65','Every value is parsed back from what is written for it',
  'In a parsed document the text that is written for an attribute is parsed, on the same element, as the same value, or as the same reference with the same fallback; a value that was stored because a reference leads nowhere is stored again. Assumed is only that svgtypes reads the text it wrote for a number, length, colour, ... as that value, that references and paint keywords are read as written, and that the text has no markup.',
  'every XML tree, every attribute of every element of the parsed document','About 30 arms of the value parser against 18 kinds of written values, all texts.',f'{P}: _parse_svg_attribute_value 283-629, resolve_links 664-712; {AV}: write_buf_opt 240-311; {W}: write_escaped 239-251')
p('C66','Printing a node shows it completely',
  'Display and Debug of a node never panic. For an element, Display gives its start tag: a reader of the text finds the tag name, the id and every attribute with its name and value, in order, and these are the names and values that to_string writes for the element. Debug shows in addition the ids of the nodes that link to it. A comment is shown as an XML comment with its text, a text node as its text.',
  'every state, every node, every way to write values','Any string can be a tag name, attribute name, id or value; nothing is escaped. Tests print a few elements with tame values.',f'{W}: Debug/Display for NodeData 253-284, write_element_content 286-308; src/attributes.rs: Display 209-233; src/attribute.rs: Display 91-95; src/name.rs: Display 51-69')
p('C67','The document can always be written',
  'to_string respects the preconditions of the XML writer: attributes are written only directly after a start tag, text only inside an element, end tags only for open elements, and all elements are closed at the end.',
  'every acyclic document reachable through the API; every parsed document','The XML writer panics on a violated precondition; which sequences of calls occur depends on the whole tree.',f'{W}: write_dom 128-174, write_attributes 182-237')
p('C68','White space is left alone exactly inside text elements',
  'The XML writer has its white space switch on for everything in the content of a text element (the end tag included), so that no indentation gets into the text, and off for everything else.',
  'every acyclic document reachable through the API','The switch is one global flag, the tree is arbitrary.',f'{W}: write_dom 150-153, 168-171')
p('C69','Edits through the *_mut methods keep the node consistent',
  'An assignment through text_mut, attributes_mut or linked_nodes_mut changes only what is assigned to, and leaves unique attribute names, right linked_nodes, and attributes that can be removed and set without a panic. (Refuted without restriction: get_mut allows a second attribute with the same name and links without bookkeeping, linked_nodes_mut allows to drop it, and then remove_attribute panics; text_mut gives elements a text. Proved for edits that do not touch links and names of other attributes; such edits are steps of the histories in all other claims.)',
  'every reachable state, every node, every assignment','Any value can be assigned at any time between other calls.',f'{N}: text_mut 183-185, attributes_mut 314-316, linked_nodes_mut 607-609; src/attributes.rs: get_mut 88-99, get_value_mut 122-133')
p('C70','Several documents can share nodes',
  'In a program with several documents, nodes may be moved into the tree of another document and refer to nodes of another document. The links of all nodes describe one forest, back references count the referring attributes, remove_attribute never panics, every document stores exactly the nodes it made that are not detached, and remove_node of a live node finds its storage key. (Refuted: remove_node of a document uses the key of the node even if another document made the node, and then panics or throws out another node; proved if every document removes only subtrees of its own nodes.)',
  'every history of calls on any number of documents, every document','Any interleaving of calls on several documents with any nodes; tests use one document.',f'{D}: Document 61-87, remove_node 235-294, drain 303-330; {N}: NodeData::storage_key')
p('C71','Dropping a document leaves the others alone',
  'When a document is dropped, the nodes it does not store keep their data, the other documents keep their storage, and every call that worked on their nodes still works. (Refuted: a node of another document that refers to a node of the dropped one keeps its attribute while the back reference is cleared, so that remove_attribute panics afterwards; proved if no reference leads into the dropped document or out of it.)',
  'every history of calls on any number of documents','Any interleaving of calls on several documents.',f'{D}: Drop 371-379; {N}: remove_attribute 563-589')
p('C72','Dropping the document and all handles frees every node',
  'After the document and all handles of the program are dropped, reference counting frees every node, also those that were removed or never put into the tree. (Refuted: two removed nodes connected by a link under a name that is not an SVG name hold each other for ever; proved if links are only between nodes of the document, for all parsed documents, and exactly: all is freed if and only if the remaining references have no cycle.)',
  'every acyclic document reachable through the API; every parsed document','Leaks are invisible to tests of behaviour; any history of calls can leave any references.',f'{D}: Drop 371-379, remove_node and _remove 235-284; src/lib.rs: NodeData 182-190')
p('C73','Nothing keeps a removed subtree alive',
  'After remove_node no node, no attribute and no storage of the document refers to a node of the removed subtree, so that it is freed with the last handle. (Refuted for links under names that are not SVG names; proved if all link attributes have SVG names. Exactly the nodes that hold or are the target of a link under another name are still referred to.)',
  'every acyclic document reachable through the API, every subtree without the root','Any references between the subtree and the rest.',f'{D}: remove_node and _remove 235-284')
p('C74','The tree may be changed in a loop over children()',
  'A loop over children() whose body changes anything but keeps the children not yet visited in place visits exactly the children at the start, in order, and ends. In particular detaching, removing or moving away each visited child detaches, removes or moves all of them.',
  'every reachable state, every node, every body','The iterator keeps pointers into the tree that the body changes; tests cannot range over loop bodies.',f'{T}: Children 461-514')
p('C75','The tree may be changed in a loop over descendants()',
  'A loop over descendants() visits every node that was below the node at the start, also if visited nodes are detached in the loop. (Refuted: after a visited node is detached the loop goes on with the nodes below it and then ends, and all nodes after them are left out; this is proved for every position. Proved for loops that leave the tree as it is, whatever else they change.)',
  'every acyclic reachable state, every node, every body','Any position in any tree; the loop ends silently.',f'{T}: Descendants 517-535, NodeEdge::next_item 563-588, Traverse 620-674')
p('C76','A panic of a move leaves the tree intact',
  'If append, prepend, insert_after or insert_before panics and the program catches the panic, the tree is as before. (Refuted: detach takes the pointers of the moved node before it runs into the borrowed neighbour; p.append(first child of p) leaves p with one child that has no parent, and the other children are lost from the front. Proved in acyclic states: the assertion changes nothing; no panic changes data, storage, or links of nodes other than the moved node and one neighbour.)',
  'every reachable acyclic state, every pair of nodes, all four methods','Tests do not look at the document after a panic.',f'{T}: append 238-266, prepend 273-298, insert_after 305-338, insert_before 345-381, NodeData::detach 386-412')
p('C77','Unwinding after a panic does not abort',
  'If a move panics and the document is dropped while the stack is unwound, Drop for Document does not panic a second time (that would abort the process). (Refuted: c.insert_after(p) for the last child c of p makes p its own parent before it panics, and the drop panics, too. Proved for every other panic of the four methods in acyclic states.)',
  'every reachable acyclic state, every pair of nodes, all four methods','Drop runs on a half-changed tree; the test process itself would be aborted.',f'{T}: insert_after 305-338, NodeData::detach 386-412; {D}: Drop 371-379')
p('C78','The exact conditions under which moves and detach panic',
  'For every pair of live nodes in every reachable state, cyclic ones included: a move of a node to itself fails the assertion; append panics on a RefCell iff the target or the moved node itself is one of the two nodes that detaching the moved node rewrites, or the target is its own last child; prepend the same with first child; insert_before iff ... or the reference node has no previous sibling and is its own parent; insert_after iff ... or the reference node has no next sibling and its parent is itself or the moved node; detach iff the node is its own parent and lacks a sibling on one side. In all other cases the call returns.',
  'every reachable state (also with cycles), every pair of live nodes, all five methods','The list of conditions must be exhaustive, also in states no sane test would build.',f'{T}: append 238-266, prepend 273-298, insert_after 305-338, insert_before 345-381, NodeData::detach 386-412')
p('C79','Exactly which calls create a cycle',
  'From an acyclic state, a call that returns leaves an acyclic state if and only if it is not a move of a node below itself (append/prepend: the target is not in the subtree of the moved node; insert_*: the moved node is not an ancestor of the reference node).',
  'every acyclic reachable state, every public call','Needs a proof in both directions for every call.',f'{T}: append 238-266, prepend 273-298, insert_after 305-338, insert_before 345-381')
p('C80','Every CSS style sheet of the document is applied in full',
  'The text of every style element whose type is text/css or missing is given to the CSS parser, in document order. (Refuted: only the first child of the element is looked at, so a comment in front of the text hides it, and a comment inside hides the rest. Proved: exactly the leading texts of those elements are used; this is all if each sheet is one piece of text.)',
  'every XML tree','Documents of any shape; ignored rules leave no trace.','src/parser/mod.rs: resolve_css 746-763')
p('C81','Moves panic exactly if a node they have to touch is borrowed by the caller',
  'If the caller holds borrows (the guards returned by attributes(), id(), text_mut() and so on), detach, append, prepend, insert_after and insert_before of two different nodes panic with a borrow error if the node itself, the moved node, one of the neighbours from which the node is cut off, or the neighbour it is put next to is borrowed. Otherwise they do exactly what they do without borrows. The nodes named in the documentation (both nodes and all adjoining ones) are therefore enough.',
  'every reachable state, every set of borrows, all pairs of nodes','The borrows of a caller and the shapes of the tree can be combined in unboundedly many ways.','src/tree.rs: Node::detach/append/prepend/insert_after/insert_before 226-380, NodeData::detach 400-424')
p('C82','Borrows of the caller are respected and otherwise have no effect',
  'With borrows held by the caller, every method either panics with a borrow error, and does so only if there is a borrow, or gives the result it gives without them; and if it returns, no borrowed node has been changed. remove_node returns only if no node of the subtree is borrowed, and dropping the document only if no stored node is borrowed.',
  'every reachable state, every set of borrows on existing nodes, every call','A method that depends on borrows does so only in rare combinations.','src/node.rs; src/tree.rs; src/document.rs')
p('C83','The documentation names all nodes whose borrow makes a method panic',
  'A method panics because of a borrow only if a node is borrowed that its documentation names, and in the way that it names. (Refuted: set_attribute and remove_attribute also touch the linked nodes, remove_node the linked nodes elsewhere, set_text and text_mut panic for shared borrows, has_parent reads the parent, svg_element the children of the root. Proved: the exact conditions for remove_attribute and set_attribute_checked.)',
  'every reachable state, every set of borrows, every element and attribute','Which nodes are touched depends on the old and the new value of the attribute.','src/node.rs: 182-227, 285-298, 340-528, 560-590; src/document.rs: svg_element 178-200, remove_node 209-295')
p('C84','A panic of a copy leaves a consistent document',
  'If copy_node panics, either the node is the root and nothing has happened, or it is an element and the document is in a state that calls without a panic could have produced: it has one additional node, without parent and children, that has the tag name and those attributes that come before the first link to a node without an id; all other nodes, their data and the tree are unchanged, except for the list of linking nodes of the targets. If copy_node_deep panics, the document is in such a state too, with some additional nodes.',
  'every reachable state, every node, every point at which the copy panics','The panic depends on the ids of nodes linked from anywhere in the copied subtree, and the code that runs before it changes the document at many points.','src/document.rs: copy_node 333-348, copy_node_deep 353-368; src/node.rs: set_attribute 339-343, 458-528')
p('C85','A call that panics has no effect',
  'If a call other than a move panics and the caller holds no borrows, the document is as before the call. (Refuted: copy_node of an element one of whose link targets has lost its id leaves a half-made copy in the storage, which is also listed as a user of the other targets. Proved: it holds for all calls that set or remove the text, the id, the tag name or an attribute.)',
  'every state, every call that sets or removes data','There are unboundedly many states and values; a test sees one panic at a time.','src/document.rs: copy_node 333-348; src/node.rs: 182-298, 339-590')
p('C86','A panic caused by a borrow leaves a consistent document',
  'If a call that sets or removes data panics because the caller holds a borrow, the document is consistent afterwards: every link has its back reference. (Refuted: remove_attribute removes the back reference before the attribute, so holding attributes() of the node leaves a link without back reference; set_attribute stores the link before the back reference, so holding id() of the target does too. In both cases later calls panic although nothing is borrowed any more. Proved: nothing has changed if neither the node nor the target of the new value is borrowed for reading; and the exact state for remove_attribute.)',
  'every state, every set of borrows, every call that sets or removes data','The combination of borrows, old values and new values is unbounded.','src/node.rs: set_link_attribute 489-528, remove_attribute 563-587')
p('C87','The attributes of an element are written under different names',
  'No two attributes of a start tag that is written have the same name, namespace declarations included; otherwise the output is not well-formed. (Refuted: an attribute set by its id and the same name given as a string coexist and are both written; and a parsed attribute with the local name xmlns in the SVG namespace becomes a second default namespace declaration. Proved: the exact condition, and that parsed documents meet it if no such attribute is there.)',
  'every reachable document, every element, every value writer','All sets of attribute names, by id or string, together with the id and the declarations.',f'{W}: write_attributes 182-237; src/name.rs: 90-99; {P}: 102-115')
p('C88','A name that SVG knows is the same whether given as id or as string',
  'An element or attribute made with a known name as a string is treated like one made with the id: elements that show the same name have the same tag, and has_tag_name, has_attribute and svg_element find it. (Refuted: an element created by the name "svg" is written as svg, but is not the svg element and declares no namespace. Proved: for all nodes whose names are ids whenever they are known, in particular for all nodes of parsed documents.)',
  'every reachable document, every pair of nodes, every name','All names and nodes.','src/name.rs: 20-109; src/document.rs: create_element 100-120, svg_element 195-203; src/node.rs: 240-298')
p('C89','Attributes of different namespaces are kept apart',
  'An XML attribute is taken for an SVG attribute only if it has the namespace of that attribute, and is written with that namespace again. (Refuted: space="preserve" acts as xml:space, and xml:lang is written as lang. Proved: without style sheets the result does not depend on the namespaces at all, as long as they are none, SVG, XLink or XML; and attributes of all other namespaces have no effect.)',
  'every XML document, every behaviour of the value parsers','All documents and all namespaces.',f'{P}: 102-115; {W}: 203-216')
p('C90','Content that is not SVG leaves no trace',
  'Processing instructions, elements that are not known SVG elements (with everything in them), blank text outside text, tspan and tref, and namespaced attributes that are not known can be left out of the XML document without changing the result of parsing: the same document with the same node numbers, or the same error. (Refuted: a style sheet inside a dropped element still applies to the whole document, and a processing instruction hides the text of a style sheet. Proved: the result depends on the XML document only through the expected DOM; and the property for all documents whose style sheets have the same rules with and without that content, if selectors look at elements only through the functions of XmlNode; for attributes without condition on the style sheets.)',
  'every XML document, every behaviour of the value parsers and of the style sheet parser, every choice of content left out','All documents, and all subsets of the content in question; equality of the whole results.',f'{P}: 77-179, 714-763')
p('C91','Stack needed by the recursive functions',
  'remove_node needs exactly as many nested calls as the subtree has levels, copy_node_deep one for each level below the node (at least one), drain one for each level it searches and the height of each subtree it removes, process_node as many as the XML tree has levels outside elements that are not SVG, and text processing one more than there are levels of elements (at most two more). With that much room the results are those of an unbounded stack; with less, a call that would succeed overflows the stack. The whole parser needs as many nested calls as the XML tree has such levels, or one more, and more than it has levels of elements. Hence for every stack size there are a document that cannot be parsed, and a parsed document on which remove_node, copy_node_deep and drain abort.',
  'every bound on the number of nested calls, every reachable state without cycles, every node and every closure that looks at the node; every XML document and every behaviour of the value parsers and of the style sheet parser','All depths; tests have a fixed stack and a deepest document, and an overflow aborts the test process.',f'src/document.rs: 235-368; {P}: 46-179; src/parser/text.rs: 37-65, 93-116, 251-259')
p('C92','Saving, loading and saving again',
  'Documents that are the same, up to the numbering of nodes and the order of SVG attributes, are written with the same calls to the XML writer. Hence writing a document, parsing the result and writing again, any number of times, gives the same output every time. (The second sentence is refuted: the string `&lt;` in font-family is written as it is, read back as `<`, and the next output is not XML. Proved for parsed documents whose ids, texts, comments and values can be written without escaping and are read as they were written.)',
  'every two reachable states without cycles that hold the same document; every parsed document of that kind, every behaviour of the value parsers and writers, every number of rounds','All documents and all numbers of rounds; tests compare one or two outputs of sample files.',f'{W}: 110-260; {P}: 77-179')
p('C93','The program is a plain machine on ordered forests',
  'Describe a document by nothing but an ordered forest of nodes that carry a type, a tag name, an id, a list of attributes and a text, and by the set of nodes stored in it; describe every call by one equation on these lists, or by the condition under which it panics. Then the program does exactly what this machine does: every history of the 18 calls that create, move, edit, reference, remove, drain and copy nodes, of assignments through text_mut and attributes_mut that leave references alone, and of handle drops, returns a state that shows the picture computed by the machine and the answer computed by it (the new node, the number of removed nodes, the error), or panics exactly where the machine does, in release and in debug builds. What the getters and iterators return, and what is written to XML, is a function of this picture.',
  'every history of calls on a new document, or from any reachable state without cycles; every predicate of drain on type, tag name, id and text; histories end with the first panic, with a handle to no node, or with a move of a node below itself',
  'A refinement of all calls to one machine over all histories; tests compare a few states after a few calls.',
  f'{D}: create_element .. copy_node_deep 75-368',f'{N}: all of Node',f'src/tree.rs: append .. insert_before, detach',f'src/attributes.rs: insert, remove',f'{W}: 110-260')
p('C94','A refused document leaves nothing behind',
  'If the parser returns NoSvgElement, it has built exactly the nodes that are expected up to the first element on the top level (nothing after it), none of them linked, and when the partly built document is dropped on the way out every one of these nodes is freed.',
  'every XML document, every behaviour of the value parsers and of the style sheet parser','All refused documents; a leak or extra work on the error path is not visible in the returned error.',f'{P}: 46-179; src/document.rs: Drop for Document 371-379')
p('C95','Parsing is a function of the XML tree',
  'The document that parsing gives is a value computed in five equations from the expected nodes (C32): number them in document order, leave out style elements, settle each reference in document order (it goes to the first node with that id, or is dropped, or gets its fallback), tidy the texts of each text root pair by pair, leave out texts of which nothing is left. Shape, order, node numbers, types, names, ids, attributes with their order and values, and texts are those of this value and no others; what is written afterwards depends on this value only, not on the build, the libraries or the XML tree otherwise. The nodes removed on the way are alone and not stored; the whole state is a picture in the sense of C93, so that all calls after parsing (load and edit) are known from it.',
  'every XML document that parses, every behaviour of the value parsers and of the style sheet parser, both builds','All documents; equality of whole documents, where tests compare written output of sample files.',f'{P}: 46-179, 664-712; src/parser/text.rs')
p('C96','What root() and linked_nodes() return after any history',
  'Two things observable through the API depend on the calls made so far and not only on the document: the node that root() remembers and the order of linked_nodes(). Both follow a small machine beside the one of C93: append and prepend give the node what its new parent remembers (or the parent itself), the insertions what the sibling remembers, nothing else changes it; setting a reference makes the node the last user of its target, a reference that goes takes the first place of the node in the list, copies come last in document order. root() returns the remembered node, the node itself if there is none, and panics exactly when the remembered node is no longer stored. After parsing every node remembers the root and the users are in the order in which the references were settled. Two states with the same picture and the same extras cannot be told apart by any calls.',
  'every history of calls on a new document or on a parsed one that does not panic (which ones do is C93), both builds','The order depends on the whole history; histories are unbounded.',f'src/tree.rs: 96-102, 238-385; {N}: 500-526, 570-632; {D}: 180-380; {P}: 664-712')
p('C97','It makes no difference when nodes are freed',
  'Nodes are reference counted, and a node goes when its last handle is dropped and nothing in the document holds it. Take any history of calls with drops of handles, and the same history in which every handle is kept. If the first returns or panics, so does the second. For every node that is left in the first one, both agree on type, names, id, attributes, text, storage, children, next sibling, descendants and users, on the answers of all further calls, and on the written text; the only differences are that a parent or a previous sibling outside the document may be gone and that root() may panic. So any two placements of the drops lead to the same document.',
  'every history of calls on a new or a parsed document, every placement of the drops','Histories and placements are unbounded; a test fixes one placement.',f'src/tree.rs: 10-60, 90-150, 386-412; {D}: 180-380')
p('C98','Freeing nodes needs a bounded stack',
  'When the last reference to a node goes, the references it holds are dropped inside of its drop, and so on; every level takes stack. For some bound, no drop of a node leads to more drops inside of each other than that. False in general: a chain of removed nodes that were put together again is freed with one level per node; the number of existing nodes outside of the document is always a bound, and it is reached. It holds with the bound 1 (a freed node holds nothing at all) after all histories of calls on a new or parsed document that only move nodes stored in the document and only make references to stored nodes, by attributes with SVG names; and with the bound 2 for the drop of the whole document then, after which nothing stays behind.',
  'every history of calls on a new or a parsed document, every node','Histories and trees are unbounded; the stack overflows only for large ones.',f'src/tree.rs: 1-60, 386-412; {D}: 365-380')
p('C99','The order of the XML attributes does not matter',
  'Two XML files that differ only in the order of the attributes of their elements give the same document, up to the order in which a node lists its attributes, and are written alike. False: `href` and `xlink:href` (and `space` and `xml:space`) are the same attribute for the parser, and the later one wins. It holds if attributes with the same local name keep their order, in particular if no element has two attributes with the same local name: same nodes with the same numbers, texts, references and order of users, and the same output, whatever the style sheets are.',
  'every XML tree, every order of its attributes, every library behaviour, both builds','Number of orders and trees is unbounded; references, style rules and text modes all depend on the attributes.',f'{P}: 77-271, 644-712; {X}; {W}: 200-330')
p('C100','The name tables are what the generator makes of its lists',
  'ElementId::from_str and AttributeId::from_str accept exactly the non-empty lines of codegen/elements.txt and codegen/attributes.txt; the id of a name is the variant whose identifier the generator makes from the name (parts between -, _ and : joined, each with a capital, N before a leading digit); the variants are declared in the order of the lines, which is alphabetical without regard to case; no two names of a list get the same variant. to_enum_name follows that rule on every string. (In general two names can get the same identifier: a-b and aB.)',
  'every string, every id; every string for to_enum_name','All strings; the tables and the lists are compared as wholes, and no test looks at the lists.','codegen/main.rs: 105-127, 168-202; codegen/elements.txt; codegen/attributes.txt; src/names.rs')
p('C101','A reference has the form its attribute name demands',
  'set_attribute stores the value it is given. (Not so: a reference is re-made from the node and the attribute name, so a paint given for mask is stored as a plain reference without its fallback, and a link given for mask as url(#id).) In every reachable state a reference is a link if the attribute is href, a paint if it is fill or stroke, and a functional reference otherwise; so the writer writes #id for href and url(#id) for everything else, with a fallback after it only in fill and stroke. A value accepted by set_attribute is stored as given if and only if it has the form of the name. The conversion from (name, node) always makes the right form, that from (name, node, fallback) only for fill and stroke.',
  'every reachable state, every live node and attribute; every name, node and fallback','All histories; the tests set references only through the matching conversions.','src/node.rs: 31-53, 458-531; src/attribute_value.rs: 278-300')
p('C102','Freeing nodes while parsing',
  'The nodes that parse_svg takes out of the document (style elements, empty texts) are freed as soon as nothing refers to them. Whichever unreferenced nodes are freed at each point, parse_svg returns the same error or the same document as if it freed nothing: the same nodes with the same contents, relatives and users, the same written text; no panic. When it returns, exactly the nodes of the document and those removed nodes that refer to a node of the document are still in memory; dropping the document frees all of them. The same holds for remove_node and drain alone.',
  'every XML tree, every outcome of the value parsers, every reachable acyclic state (for remove_node and drain), every choice of the unreferenced nodes that are freed at each point','Depends on reference counts at every intermediate point; the tests never look at freed nodes.','src/parser/mod.rs: parse_svg 46-75, resolve_links 664-712; src/document.rs: remove_node 235-295, drain 303-328; src/parser/text.rs: prepare_text 37-50')
p('C103','References do not form rings',
  'Following references from element to element (from an element with a link attribute to the element it names) never leads back to the start, so that a program that follows references ends. The documentation says that linked nodes cannot reference each other or themselves; the code checks only the two ends of the new reference. In every reachable state there is no ring of one or two references, but for every n from 3 on there is a document with a ring of n references and no shorter one through the same element; the parser keeps rings of three, too.',
  'every history of calls, every node, every length of a ring','Rings of every length; the tests try rings of one and two elements.','src/error.rs: 12-27; src/node.rs: 458-531; src/parser/mod.rs: 644-712')
p('C104','Moves can be taken back',
  'After any sequence of append, prepend, insert_after, insert_before and detach that returns, putting the moved nodes back (each one detached and then inserted before the node that followed it, or else after the one before it, or else appended to its parent, the last moved node first) works without a panic and leads back to the state before. True for the tree, the content of all nodes, membership in the document, the written output, the users of every node in their order, and root() of all nodes that were not moved. False for root() of moved nodes: a node that had no parent, appended and detached again, keeps the root of the other tree.',
  'every reachable acyclic state, every sequence of moves (not below themselves)','Every state and every number of moves; putting a node back touches up to five other nodes, and a direct call may panic on borrowed neighbours.','src/tree.rs: 222-381, 386-412')
p('C105','Text processing neither joins nor splits words',
  'After prepare_text every element at which text processing starts, every element below it, every run of consecutive texts below it and every single text node has exactly the words it had before, in both xml:space modes and mixtures of them, where words are separated by the characters that str::trim takes for white space. (Counting only XML white space this is false: a witness joins two words at a no-break space. Between two neighbouring text elements no space is kept.)',
  'for all documents that can reach prepare_text, all text elements, all elements and runs of texts below them','The loop takes single spaces away at many borders and remembers the last text that is not blank; whether a word border is lost depends on all texts in between, so it needs an invariant over texts of any number and depth.','src/parser/text.rs: prepare_text 37-65, prepare_text_children 93-249, collect_text and trim 251-283')
p('C106','Independent calls commute',
  'Calls that make or move nodes (create_element, create_node, append, prepend, insert_after, insert_before, detach) and calls that change what one node carries (text, id, tag name, attributes) are independent: a change of content may be done after the next shape call instead, and in any history of such calls all changes of content may be left to the end. Two changes of content may be exchanged if neither call mentions the node that the other one changes. The results cannot be told apart by any observation; only the order in which linked_nodes lists the users may differ. Both conditions are needed: two elements that each ask (set_attribute_checked) to refer to the other end differently in the two orders, and the order of linked_nodes does differ.',
  'for every document reached by any history of the API without a cycle of strong references, and every history of calls of these two kinds that runs, whatever the number of exchanges','The number of interleavings is unbounded; a bug in which a move reads or rewrites content (or a setter touches tree pointers of another node) shows only for a particular interleaving. Tests run each sequence in the single order in which it was written.','src/tree.rs: detach to insert_before 222-381; src/node.rs: set_text, set_id, set_tag_name, set_attribute, set_attribute_checked, set_attribute_if_none, remove_attribute 140-600')
p('C107','Moves of different nodes commute',
  'Two calls among append, prepend, insert_after, insert_before and detach that move different nodes to different places, where neither place is given by the node that the other call moves, may be exchanged: if both orders run, every observation afterwards is the same, including root() and the order of linked_nodes. This holds even if the two places are neighbours. It is needed that both orders run (appending 2 to 1 runs, but not after the node between them was moved away), and that the places differ (two nodes appended to one parent are in the order of the calls).',
  'for every document reached by any history of the API without a cycle of strong references, all nodes and all pairs of such calls','There are unboundedly many shapes of the surroundings (neighbours, first and last children, nodes without parent); the pointers each call rewrites overlap when the places are neighbours, and tests run only one order.','src/tree.rs: detach to insert_before 222-381')
p('C108','A removal that a borrow stops can be repeated',
  'If remove_node or drain panics because the caller holds a borrow of a node, the document is in a state that complete calls also lead to; repeating the call without the borrow gives the document that a call without any borrow would have given.',
  'for all reachable acyclic documents, all nodes, all predicates that look at the node only, and all combinations of shared and mutable borrows that the caller may hold','The state after a caught panic depends on which of many steps of a recursive removal the borrow stops; every combination of borrows and every shape of tree would have to be tried.','document.rs:235-328; node.rs:437-476; tree.rs:229-231, 386-412')
p('C109','Copies never change existing nodes',
  'copy_node and copy_node_deep, whatever borrows the caller holds and whether they return, panic or do not end, leave every existing node as it was: its place in the tree, its content, and its references to and from other existing nodes. Only new nodes can be added to a list of linked nodes.',
  'for all reachable documents (with cycles too), all nodes, and all combinations of shared and mutable borrows that the caller may hold','A copy can stop after any of its steps, because of any borrowed node it meets; every tree, every combination of borrows and every point of failure would have to be tried.','document.rs:333-368; node.rs:253-345; tree.rs:229-266, 386-412')
p('C110','The characters of the output can be read and parsed back',
  'With any write options, the characters that are written for a document are an XML document (read by an independent character-level reader), which up to indentation is the one of C61; and if the document comes back in the sense of C62, then parsing these characters gives the same document again, which is written with the same characters.',
  'for all reachable trees without cycles (or parsed documents), all widths and kinds of indentation of elements and attributes, both quotes, and all ways to write values','It is about every document with every combination of options; texts, quotes and white space interact with the place in the tree and with the state of the writer, and a test can only compare chosen documents with chosen texts.','document.rs:91-101; writer.rs:29-237; tests/writer.rs')
p('C111','The attributes of two nodes can be exchanged',
  'attributes_mut of two nodes together with mem::swap exchanges their attribute lists. The document stays consistent: names are unique, linked_nodes mirror the references, and no later removal of an attribute panics or misses a reference. The same for attributes of one node that are brought into another order with iter_mut and mem::swap.',
  'for all reachable states and all pairs of existing nodes','Whether a later call panics depends on how often each node is referred to by either list; tests exchange a few lists, the claim is about all of them and all later removals.','node.rs:314-316, 563-587; attributes.rs:190-192')
p('C112','Saving and loading again and again comes to rest',
  'A document that comes back from its text but for white space in its texts can be saved and loaded any number of times, and after at most as many rounds as there is white space in its texts (spaces counted once, tabs and line ends twice) it is saved the same for ever; it is saved the same after the first round if and only if its texts are trimmed already.',
  'for all reachable trees without cycles (or parsed documents) that meet the assumptions of C62 except that on texts, all ways to write values, all sequences of rounds of saving and loading, however long','It is about infinite sequences of rounds on all documents. The trimming of texts looks at neighbouring texts in other elements, so a round can make white space removable that was not before, and how many rounds are needed depends on the document.','parser/text.rs:28-283; parser/mod.rs:46-180; writer.rs:29-237')
p('C113','CSS can be resolved by hand',
  'A document whose style sheets and style attributes are resolved by hand, each value written as an attribute of the element it applies to, and the style sheets taken out, gives the same document when parsed: the same elements, attributes, references and texts, and the same output.',
  'for all XML trees, all style sheets and selectors, all CSS and value parsers (for which the empty style sheet has no rules), both builds, all ways to write values','It compares two documents for every pairing of style sheets, selectors, style attributes and attributes. Tests compare single documents with one rule or one style attribute.','parser/mod.rs:77-271; parser/mod.rs:644-662; parser/mod.rs:744-763; docs/preprocessor.md:15-27; docs/preprocessor.md:90-136')
p('C114','Removals: order and repetition do not matter',
  'Removing several nodes one after the other never panics, and the result depends only on the set of nodes that go: not on the order of the calls, not on nodes that are inside others of the list, not on nodes that are removed twice. No getter, iterator, writer and no later call tells the results apart. `drain` is the same as removing its matches one by one in any order.',
  'for all reachable states without a node below itself, all lists of nodes, all orders and repetitions, all later histories of calls, all predicates of drain','It compares two histories of calls of any length for every document. Tests remove one node, or drain one small document, and do not call remove_node on a node that is gone.','document.rs:235-295; document.rs:296-328; CHANGELOG.md:39; attributes.rs; node.rs (detach)')
p('C115','Only the last of several calls counts',
  'If a text, id, tag name or attribute of a node is set again later, the earlier call may be left out of the history; if a node is moved twice, the first move may be left out. No getter tells the difference, except that linked_nodes() may have another order if the earlier call set a reference. A node that is detached first can be moved to every place that is not inside it.',
  'for all reachable states without a node below itself, all pairs of such calls, all calls in between that make or move nodes or set parts of nodes to something that is no reference, all later calls','It compares two histories of any length; tests check single calls, and do not set or move anything twice.','node.rs (set_text, set_id, set_tag_name, set_attribute, remove_attribute); attributes.rs (insert, remove_impl); tree.rs:229-412')
p('C116','A copy that is removed again leaves no trace',
  'If a node, or a node with all that is below it, is copied and the copy is removed, the removal succeeds and every getter, every iterator and the writer give for the nodes that were there before what they gave before, also linked_nodes().',
  'for all reachable states without a node below itself, all nodes, both kinds of copies','It needs the whole state before and after two calls that walk whole subtrees; tests look at the copy, not at the other nodes, and use no references under unknown names.','document.rs:235-300 (remove_node), document.rs:333-374 (copy_node, copy_node_deep)')
p('C117','A copy is written like the original, without ids',
  'If a node of the document is copied with copy_node_deep and the copy is inserted behind the original, both calls succeed and the writer makes the same calls as before, with the calls for the original repeated once directly behind them, without the id attributes.',
  'for all reachable states without a node below itself, all nodes of the document that can be copied, all ways to write values','It relates the whole output before and after, for subtrees of any size anywhere in the document, including the namespace declarations, which depend on all nodes below.','document.rs:333-374 (copy_node, copy_node_deep), node.rs insert_after, writer.rs:128-237')
p('C118','What is taken out of the document disappears from the output, and nothing else',
  'If a node of the document is detached, or removed with remove_node while no other node of the document refers into its subtree, the call succeeds and the writer makes the same calls as before without one contiguous block, the calls for the node and what is below it. Only the declaration of the namespace xlink may go as well, and it goes exactly if the subtree held the last href below the top-level svg element.',
  'for all reachable states without a node below itself, all nodes of the document but the root, all ways to write values','It relates the whole output before and after, for subtrees of any size anywhere in the document, including the namespace declarations, which depend on all nodes below.','document.rs remove_node, node.rs detach, writer.rs:128-237')
p('C119','What a node has depends on its type',
  'A node that is not an element has no tag name, no id and no attributes, and no attribute refers to it; an element has no text. (Refuted: release builds let a comment have a tag name, an id and attributes, and text_mut gives an element a text in every build. Proved: the first half in debug builds and for parsed documents in all builds, the second half for all calls of debug builds.)',
  'for all reachable states of debug builds, all histories of calls of debug builds, all parsed documents of both builds, all nodes','It is an invariant over all histories, including copies, removals and edits, that rests on assertions scattered over five methods.','node.rs:165-230, 277-300, 440-490; document.rs create_element, create_node; parser.rs')
p('C120','Release builds do what debug builds do',
  'Apart from the failure of a debug_assert!, builds with and without debug assertions behave alike: every call, and every history of calls, gives in a release build the same result as in a debug build, also the same panic, unless a debug_assert! fails. Parsing gives the same document or the same error in both builds, without exception. Writing gives the same output.',
  'for all states (not only reachable ones), all calls and histories of calls whose drain conditions do not depend on the build, all parser inputs, all ways to write values','Tests run in one build only; that the assertions have no other effect and that the parser never trips one must be shown for all inputs.','node.rs:193, 224, 288, 459, 480; tree.rs:259, 263, 286, 292, 319, 367; parser.rs; writer.rs')
p('C121','has_parent and is_svg_element mean what they say',
  'has_parent is true exactly for the children of nodes other than the root of the document; so in the document it is false exactly for the top-level nodes. is_svg_element is true exactly for elements whose tag name is one of the ids; in debug builds the tag name alone decides, and in a parsed document exactly the elements are SVG elements.',
  'for all reachable states, all nodes, all parsed documents','has_parent looks at the type of the parent, so that it is about the root of this document depends on no other node ever having that type, in any history.','node.rs:102-107, 234-243')
out=os.path.join(os.path.dirname(os.path.abspath(__file__)),'..','properties.jsonl')
with open(out,'w') as f:
    for x in P_: f.write(json.dumps(x)+'\n')
print(len(P_))
