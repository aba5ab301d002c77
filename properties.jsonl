{"id": "C01", "title": "String escaping is markup-safe", "statement": "For every Go string used as content of Text, Comment, PI, an attribute value or ImperativeContext.WriteString, the bytes written contain no '<', '>', '\"', \"'\" or NUL byte, and every '&' written starts one of the five character references &quot; &apos; &amp; &lt; &gt;.", "quantifier": "every byte string (any length, any bytes including invalid UTF-8)", "why_tests_cant": "The input space is every byte string; a table of sample strings says nothing about the index bookkeeping at other positions and lengths.", "anchors": ["value.go: htmlEscapeString, valueToBytes", "imperative.go: WriteString"]}
{"id": "C02", "title": "String escaping loses only NUL bytes", "statement": "Decoding the five character references in the escaped form of a string gives back exactly the original string with its NUL bytes removed; in particular two different NUL-free strings never produce the same output.", "quantifier": "every byte string", "why_tests_cant": "A round trip over an infinite domain, including strings that already contain text such as '&lt;'.", "anchors": ["value.go: htmlEscapeString"]}
{"id": "C03", "title": "Escaping is compositional", "statement": "Rendering a string in one piece or cut into any pieces (Text(a+b) versus Text(a, b), and any nesting of NewConcatValue) writes the same bytes; the no-special-characters fast path gives the same result as the slow path.", "quantifier": "every pair of byte strings and every way of splitting them", "why_tests_cant": "Quantifies over all strings and all split points.", "anchors": ["value.go: htmlEscapeString, newValues, NewConcatValue", "text.go: Text"]}
{"id": "C04", "title": "Values are formatted according to their type", "statement": "A bool is written as true/false, a []byte verbatim, a string escaped, every integer type as its canonical decimal text (which reads back as the same number and contains only digits and an optional leading minus), a func() any as its result, a fmt.Stringer as its String() text, and a value of any other type writes nothing.", "quantifier": "every value of every supported dynamic type, at any nesting of func() any", "why_tests_cant": "Integer ranges and nested thunks cannot be enumerated.", "anchors": ["value.go: valueToBytes"]}
{"id": "C05", "title": "Data values cannot inject markup", "statement": "Whatever non-[]byte, non-DynamicValueFunc value is given as static content or found under a DynamicValueKey, the bytes it writes contain none of < > \" '. (False in the code for fmt.Stringer values, whose text is written unescaped.)", "quantifier": "every dynamic value, static or looked up at render time", "why_tests_cant": "Safety against every value, not against sample values.", "anchors": ["value.go: valueToBytes, newValue"]}
{"id": "C06", "title": "Element framing", "statement": "Rendering NewElement(name, contents...) without a write error writes exactly '<', name, the element's attributes, '>', the renderings of its non-attribute contents in order, '</', name, '>'.", "quantifier": "every element tree of any depth and width, every context", "why_tests_cant": "Trees are unbounded in depth and width and contents are arbitrary nodes.", "anchors": ["element.go: (*element).Render, NewElement"]}
{"id": "C07", "title": "Void elements have neither content nor closing tag", "statement": "Rendering NewVoidElement(name, contents...) writes exactly '<', name, the attributes, '>'; the output is the same whatever non-attribute contents are passed.", "quantifier": "every name, every list of contents", "why_tests_cant": "All contents lists.", "anchors": ["element.go: (*voidElement).Render, NewVoidElement"]}
{"id": "C08", "title": "Element() is void for exactly the HTML void names", "statement": "Element(name, ...) makes a void element iff name is byte for byte one of area base br col embed hr img input link meta param source track wbr; every other valid name makes an element with a closing tag.", "quantifier": "every byte string name", "why_tests_cant": "All names, not the listed ones only.", "anchors": ["element.go: Element, voidElementNames"]}
{"id": "C09", "title": "Name validation", "statement": "Element, VoidElement, Attribute, BooleanAttribute and DelimitedAttribute return a node iff the name is an ASCII letter followed by ASCII letters, digits or . _ - :, otherwise they return nil (or panic when PanicOnInvalidName is set); hence no node made by them has a name containing space, quote, '<', '>', '=', '/' or a newline, also not at the end.", "quantifier": "every byte string name and both settings of PanicOnInvalidName", "why_tests_cant": "Negative claims over all strings.", "anchors": ["aitch.go: htmlTagRegex, PanicOnInvalidName", "element.go: Element, VoidElement", "attribute.go: Attribute, BooleanAttribute, DelimitedAttribute"]}
{"id": "C10", "title": "An attribute name appears at most once per tag", "statement": "However many attributes, collections and conditionals an element is given, and whichever conditions hold at render time, no attribute name is written twice in its start tag.", "quantifier": "every contents list, every context, every map iteration order", "why_tests_cant": "Quantifies over all contents, all condition outcomes and all map orders.", "anchors": ["element.go: renderAttributes, addAttributes"]}
{"id": "C11", "title": "Repeated plain attributes: last wins, first position kept", "statement": "With no conditional attribute in effect, the start tag shows the distinct attribute names in order of first declaration, and a name declared several times where the last declaration is a plain or boolean attribute shows the last declaration only.", "quantifier": "every list of attributes", "why_tests_cant": "All lists, any repetition pattern.", "anchors": ["element.go: addAttributes, renderAttributes"]}
{"id": "C12", "title": "Repeated delimited attributes merge in order", "statement": "Declaring a delimited attribute (Class, Style, ...) several times on one element renders one attribute whose values are all declared values, in declaration order.", "quantifier": "every list of delimited declarations, any number of values each", "why_tests_cant": "All lists.", "anchors": ["element.go: addAttributes", "attribute.go: NewDelimitedAttribute"]}
{"id": "C13", "title": "Delimiter placement", "statement": "A delimited attribute whose values render to byte strings w1..wn writes the non-empty ones separated by exactly one delimiter (never two in a row, never a leading one), followed by a delimiter only when some value is non-empty and the last value is empty.", "quantifier": "every list of values (static, dynamic or concatenated) and every context", "why_tests_cant": "All patterns of empty and non-empty values.", "anchors": ["attribute.go: (*delimitedAttribute).Render"]}
{"id": "C14", "title": "Attributes and contents may be interleaved freely", "statement": "Two contents lists with the same sequence of attributes and the same sequence of non-attribute items build elements with identical renderings, whatever the interleaving.", "quantifier": "every pair of lists with equal attribute and content subsequences", "why_tests_cant": "All interleavings.", "anchors": ["element.go: attributesAndContents, NewElement"]}
{"id": "C15", "title": "Collections are transparent inside elements", "statement": "Replacing Collection(a, b, ...) by a, b, ... in the contents of an element, at any nesting, does not change its rendering (attributes are hoisted to the element, contents rendered in place).", "quantifier": "every contents list and nesting of collections", "why_tests_cant": "All nestings.", "anchors": ["collection.go: Collection, (*collection).Render", "element.go: attributesAndContents"]}
{"id": "C16", "title": "Conditional content is rendered iff its condition holds", "statement": "The non-attribute nodes under a Conditional contribute their renderings, in order, when the condition function returns true, and nothing otherwise; Conditional(nil, nodes...) behaves as Collection(nodes...).", "quantifier": "every condition, context and node list", "why_tests_cant": "All nodes and contexts.", "anchors": ["conditional.go: Conditional, (*conditional).Render"]}
{"id": "C17", "title": "Conditional attributes follow all their enclosing conditions", "statement": "An attribute nested under Conditionals c1, ..., ck (through any collections) is in effect on its element exactly when all of c1, ..., ck hold. (False in the code: from four levels on, sibling conditionals overwrite each other's condition.)", "quantifier": "every nesting of collections and conditionals, every outcome of the conditions", "why_tests_cant": "Needs arbitrary nesting depth; it depends on slice capacity growth that only deep nests exercise.", "anchors": ["element.go: attributesAndContents", "conditional.go: conditionalAttribute.evaluate"]}
{"id": "C18", "title": "When truth table and complement", "statement": "When(k, ...) is in effect iff the data has key k and its value is not the boolean false; When(\"!\"+k, ...) is in effect iff When(k, ...) is not, for every k not starting with '!'.", "quantifier": "every key, every data map including a nil one", "why_tests_cant": "All keys and all values of any type.", "anchors": ["conditional.go: When"]}
{"id": "C19", "title": "Conditional attributes override or extend static ones", "statement": "When a conditional attribute in effect has the name of a static attribute: if the static one is delimited the tag shows its values followed by the values of all conditional ones in effect, otherwise the last conditional one in effect replaces it; for a name with no static declaration, the first conditional one in effect decides in the same way.", "quantifier": "every set of static and conditional attributes and condition outcomes", "why_tests_cant": "All combinations.", "anchors": ["element.go: renderAttributes"]}
{"id": "C20", "title": "Rendering is deterministic", "statement": "The same node rendered with the same context writes the same bytes. (False in the code when a conditional attribute is in effect: attributes are then written in Go map order; the tag then holds the same attributes in some order.)", "quantifier": "every node, context and map iteration order", "why_tests_cant": "Map order is chosen at run time by the runtime; a test sees one order.", "anchors": ["element.go: renderAttributes"]}
{"id": "C21", "title": "Context.Write stops at the first error", "statement": "Once a write through Context.Write has failed, further Context.Write calls neither reach the writer nor change Context.Error.", "quantifier": "every writer behaviour and every sequence of Context.Write calls", "why_tests_cant": "All failure points and all call sequences.", "anchors": ["context/context.go: Write"]}
{"id": "C22", "title": "A failed write is reported by Render", "statement": "If any write to the writer fails during Render, Render returns a non-nil error. (False in the code for writers that recover, and for Imperative nodes; holds for writers that stay failed and nodes without Imperative.)", "quantifier": "every node and every writer behaviour (any failure point)", "why_tests_cant": "Every write is a possible failure point.", "anchors": ["value.go: Value.render", "element.go: (*element).Render", "iterate.go", "imperative.go: (*imperative).Render"]}
{"id": "C23", "title": "Output after a crash is a prefix", "statement": "When the writer fails at some point and stays failed, the bytes it accepted are a prefix of the bytes the same Render would have written to a healthy writer.", "quantifier": "every node (including all dynamic ones), every failure point, every partial last write", "why_tests_cant": "Every byte position is a crash point.", "anchors": ["context/context.go: Write", "value.go: Value.render", "attribute.go: Render", "collection.go: Render", "comment.go: Render", "conditional.go: Render", "element.go: Render", "fragment.go: Render", "imperative.go: Render", "iterate.go: Render", "pi.go: Render", "text.go: Render"]}
{"id": "C24", "title": "An Imperative function's error surfaces", "statement": "When the function given to Imperative returns an error, the Render of every enclosing node returns a non-nil error. (False in the code: a following text sibling, ContentCollect or WriteNodes discards it.)", "quantifier": "every enclosing tree", "why_tests_cant": "All contexts around the imperative node.", "anchors": ["imperative.go: (*imperative).Render", "element.go: (*element).Render", "collection.go: (*contentCollector).Render"]}
{"id": "C25", "title": "Imperative markup is balanced after EndAll", "statement": "For every sequence of Start, End, EndAll, WriteString and WriteNodes calls on an ImperativeContext followed by EndAll, the tags it opened and closed are properly nested and all closed; End closes the most recently opened non-void element and does nothing when none is open.", "quantifier": "every finite sequence of calls, of any length and nesting", "why_tests_cant": "All call sequences.", "anchors": ["imperative.go: Start, End, EndAll"]}
{"id": "C26", "title": "Imperative Start writes the same tag as a declared element", "statement": "Start(name, void, attrs...) writes the same start tag as NewElement(name, attrs...) does. (Only in part: they differ for empty delimited values and for a delimited attribute following a plain one of the same name.)", "quantifier": "every attribute list", "why_tests_cant": "All lists and repetition patterns.", "anchors": ["imperative.go: Start", "element.go: addAttributes, renderAttributes"]}
{"id": "C27", "title": "Iterate renders its nodes once per item in order", "statement": "Iterate(fn, nodes...) writes, for each item returned by fn in order, the renderings of the non-attribute nodes with Cargo = item and Data = the item when it is a map[string]any, the outer Data otherwise; an empty result writes nothing.", "quantifier": "every item list and node list", "why_tests_cant": "All lists.", "anchors": ["iterate.go: Iterate, (*iterator).Render"]}
{"id": "C28", "title": "Iteration leaves the outer context alone", "statement": "After an Iterate, IterateKey or IterateYield node has rendered, the outer context has its previous Data and Cargo, and nodes after it see them unchanged.", "quantifier": "every iteration node and context, nested iterations included", "why_tests_cant": "All nestings.", "anchors": ["iterate.go: (*iterator).Render, (*yieldIterator).Render"]}
{"id": "C29", "title": "IterateYield items see their own data", "statement": "Each item yielded to IterateYield is rendered with the same Data as Iterate would give it. (False in the code: a non-map item sees no data, or the data of the last map item before it.)", "quantifier": "every sequence of yielded items", "why_tests_cant": "All sequences of items of mixed types.", "anchors": ["iterate.go: (*yieldIterator).Render"]}
{"id": "C30", "title": "IterateKey item sources", "statement": "IterateKey(k) iterates the elements of Data[k] when it is a slice of any element type, in index order, and writes nothing when the key is missing, the data is nil, the value is not a slice or the slice is empty.", "quantifier": "every data map, key and value", "why_tests_cant": "All values of all types.", "anchors": ["iterate.go: IterateKey"]}
{"id": "C31", "title": "context.Get lookup order and typing", "statement": "Get[T](ctx, key) returns Data[key] if present with type T; otherwise the entry key of a string-keyed map Cargo or the field key of a struct Cargo (or of what a Cargo pointer points to) if it has type T; otherwise (zero, false). MustGet returns the same value and panics exactly when Get reports false.", "quantifier": "every context, key and target type", "why_tests_cant": "All data, cargo shapes and types.", "anchors": ["context/context.go: Get, MustGet"]}
{"id": "C32", "title": "context.Get never panics", "statement": "Get reports a missing or wrongly typed key by its boolean and never panics. (False in the code: unexported struct fields and maps keyed by a named string type panic.)", "quantifier": "every context, key and target type", "why_tests_cant": "Absence of panics over all cargo shapes.", "anchors": ["context/context.go: Get"]}
{"id": "C33", "title": "DynamicValueKey reads the current context", "statement": "DynamicValueKey(k) writes the formatted value of Data[k] of the context current at render time, nothing when absent, and DynamicValueKey(\".\") writes the formatted Cargo; the same in text and in attributes.", "quantifier": "every key, data and cargo", "why_tests_cant": "All keys and values.", "anchors": ["value.go: newValue"]}
{"id": "C34", "title": "Rendering does not change the template", "statement": "Rendering nodes that call no user function leaves all nodes and the context data unchanged, so rendering a template again (from the same context) writes the same bytes again.", "quantifier": "every node without user callbacks, any number of renders", "why_tests_cant": "All nodes and histories of renders.", "anchors": ["element.go: renderAttributes", "attribute.go: Render", "collection.go: Render", "comment.go: Render", "conditional.go: Render", "element.go: Render", "fragment.go: Render", "imperative.go: Render", "iterate.go: Render", "pi.go: Render", "text.go: Render"]}
{"id": "C35", "title": "Building an element does not change other nodes", "statement": "Constructing an element leaves every previously built node with the same rendering. (False in the code: a delimited attribute node used first for its name on an element absorbs the values of later ones, for all elements that share it and again on each construction.)", "quantifier": "every sequence of constructions sharing attribute nodes", "why_tests_cant": "All histories of constructions and sharing patterns.", "anchors": ["element.go: addAttributes"]}
{"id": "C36", "title": "Content values are concatenated in order", "statement": "Text, Fragment, Comment, PI and plain attributes write the concatenation, in order, of the bytes of their non-nil content values, flattening nodes that carry values and collections of them; NewValue and NewConcatValue write the same bytes as their arguments would.", "quantifier": "every list of contents, any nesting", "why_tests_cant": "All lists and nestings.", "anchors": ["value.go: newValues, newValue, NewValue, NewConcatValue, Value.render", "text.go", "fragment.go", "comment.go", "pi.go", "attribute.go"]}
{"id": "C37", "title": "No injection: rendered markup parses back to its source", "statement": "For every tree of elements with valid names, plain attributes with arbitrary string values, boolean attributes, arbitrary string texts and comments, tokenizing the rendered bytes as HTML gives back exactly the start tags with their attribute names and values, the texts, the comments and the end tags of the tree (up to NUL bytes). (False in the code for comments and for elements such as script and style, where a reader does not decode the escaped characters.)", "quantifier": "every such tree of any size, every string", "why_tests_cant": "A parse/print round trip over an infinite domain including adversarial strings.", "anchors": ["element.go", "attribute.go", "text.go", "comment.go", "value.go: htmlEscapeString"]}
{"id": "C38", "title": "String content cannot close a comment early", "statement": "For string contents, Comment writes '<!--', bytes without any '>', then '-->': the only '>' of the comment is its last byte.", "quantifier": "every list of strings", "why_tests_cant": "All strings, adversarial ones included.", "anchors": ["comment.go: (*comment).Render", "value.go: htmlEscapeString"]}
{"id": "C39", "title": "Document shape", "statement": "Document(lang, head, body) writes '<!DOCTYPE html>' newline, then one html element with the lang attribute iff lang is non-nil, a head element iff head is non-empty, then a body element, in this order.", "quantifier": "every lang, head and body", "why_tests_cant": "All contents.", "anchors": ["html/document.go: Document, (*document).Render", "pi.go: DocType"]}
{"id": "C40", "title": "css properties and units", "statement": "A css property function writes 'property:' followed by its values; a unit function writes its values followed by the unit; several css properties and Style declarations on one element are joined by '; '.", "quantifier": "every list of values and properties", "why_tests_cant": "All lists.", "anchors": ["css/properties.go: styleAttribute", "css/units.go"]}
{"id": "C41", "title": "css unit functions leave the caller's slice alone", "statement": "Calling a css unit function with a slice (Px(s...)) does not change any element of an array the caller can still see. (False in the code: when the slice has spare capacity the element after it is overwritten.)", "quantifier": "every slice: contents, length and capacity", "why_tests_cant": "Depends on len/cap of the argument, all combinations.", "anchors": ["css/units.go: Px and the other units"]}
{"id": "C42", "title": "htmx headers are serialised deterministically", "statement": "Headers/HeadersJS with HeadersMap values write the merged map (later maps win) with its keys in sorted order, independent of map iteration order; Headers panics exactly when HeadersMap values and other values are mixed.", "quantifier": "every list of header maps and values, every map iteration order", "why_tests_cant": "Map iteration order is chosen by the runtime; all maps.", "anchors": ["htmx/attributes.go: Headers, HeadersJS, HeadersMap.serialize"]}
{"id": "C43", "title": "Header keys cannot leave the attribute", "statement": "No header key, whatever its bytes, writes a double quote into the hx-headers attribute value.", "quantifier": "every key", "why_tests_cant": "All strings.", "anchors": ["htmx/attributes.go: HeadersMap.serialize"]}
{"id": "C44", "title": "Aria, Data and htmx.On names are independent", "statement": "The names of attributes made by Aria, Data and On are the prefix followed by the argument, and stay so whatever calls follow. (Depends on the capacity of the package-level prefix slice: true iff it has no spare capacity.)", "quantifier": "every sequence of calls", "why_tests_cant": "All call histories; depends on slice capacity.", "anchors": ["html/attributes.go: Aria, Data", "htmx/attributes.go: On"]}
{"id": "C45", "title": "GenerateCode string literals denote the original text", "statement": "Text, comments and attribute values written by GenerateCode as Go string literals denote exactly the input text (when it has no characters illegal in Go source).", "quantifier": "every text", "why_tests_cant": "Round trip through Go's literal syntax for all strings.", "anchors": ["html/generator.go: GenerateCode escape", "svg/generator.go: GenerateCode escape"]}
{"id": "C46", "title": "GenerateCode output has balanced parentheses", "statement": "For every token stream in which start and end tags are balanced, the generated code has balanced parentheses and its indentation returns to zero. (False for HTML with void start tags such as <br>, which have no end tag.)", "quantifier": "every token stream", "why_tests_cant": "All nestings.", "anchors": ["html/generator.go: GenerateCode", "svg/generator.go: GenerateCode"]}
{"id": "C47", "title": "GenerateCode maps tags to functions that make them", "statement": "When GenerateCode emits a package function for a tag or attribute, that function builds an element or attribute of exactly that name, and boolean attributes are emitted without argument exactly for boolean constructors. (For SVG, mixed-case entries can never be selected; some html entries are inconsistent.)", "quantifier": "every tag and attribute name", "why_tests_cant": "The whole table and every other string.", "anchors": ["html/generator.go: mappings", "svg/generator.go: mappings", "html/elements.go", "html/attributes.go", "svg/elements.go", "svg/attributes.go"]}
{"id": "C48", "title": "Templates interleave nodes and text in order", "statement": "Executing a Template writes the template text with each {{name .}} replaced by the rendering of the node registered under that name, in order (actions in text, and attributes inside tags; C76 is about other places), and stops at the first node whose Render returns an error.", "quantifier": "every template, node map and context", "why_tests_cant": "All templates and failure points.", "anchors": ["template.go: Execute, NewTemplate, contextFunc"]}
{"id": "C49", "title": "Nbsps", "statement": "Nbsps(n) is n copies of '&nbsp;' for n > 0 and nil otherwise; its length is 6n.", "quantifier": "every integer n", "why_tests_cant": "All n.", "anchors": ["text.go: Nbsps"]}
{"id": "C50", "title": "Concurrent renders do not interfere", "statement": "Rendering the same nodes from several goroutines with separate contexts and writers gives, for every interleaving of their steps, each writer the same bytes as rendering alone, if the user functions in the nodes leave shared memory alone.", "quantifier": "every number of goroutines and every schedule", "why_tests_cant": "Schedules cannot be enumerated by tests.", "anchors": ["attribute.go: Render", "collection.go: Render", "comment.go: Render", "conditional.go: Render", "element.go: Render", "fragment.go: Render", "imperative.go: Render", "iterate.go: Render", "pi.go: Render", "text.go: Render"]}
{"id": "C51", "title": "Constructors use the right element kind", "statement": "Every html package element function builds a void element iff Element() would for the same name, so Element(name, ...) and the named function render the same bytes. (False in the code for html.Track, which is not void.)", "quantifier": "every element function and every contents list", "why_tests_cant": "All contents for the whole table.", "anchors": ["html/elements.go", "element.go: voidElementNames"]}
{"id": "C52", "title": "Rendering terminates", "statement": "Rendering any node whose callbacks return (and that contains no unbounded dynamic values) finishes after finitely many steps, whatever the writer does.", "quantifier": "every tree of any depth, every writer and every context", "why_tests_cant": "Termination for all inputs cannot be observed by running some.", "anchors": ["attribute.go: Render", "collection.go: Render", "comment.go: Render", "conditional.go: Render", "element.go: Render", "fragment.go: Render", "imperative.go: Render", "iterate.go: Render", "pi.go: Render", "text.go: Render"]}
{"id": "C53", "title": "Named attribute functions make the attribute they are named after", "statement": "Every attribute function of the html, svg and htmx packages makes an attribute with exactly the name the package documents for it; different functions of a package make different attributes (apart from listed aliases), and only class-like and style-like attributes are delimited.", "quantifier": "every attribute function and every argument list", "why_tests_cant": "The whole table for all arguments.", "anchors": ["html/attributes.go", "svg/attributes.go", "htmx/attributes.go"]}
{"id": "C54", "title": "Browsers see the header keys", "statement": "A browser that decodes the hx-headers value written for a HeadersMap and reads the quoted keys reads exactly the keys of the map. (False in the code for keys containing a single quote, a backslash, a line end or an ampersand.)", "quantifier": "every key", "why_tests_cant": "All byte strings.", "anchors": ["htmx/attributes.go: serialize"]}
{"id": "C55", "title": "GenerateCode reports write errors", "statement": "If the writer passed to GenerateCode returns an error from any Write, GenerateCode returns a non-nil error; if no write fails it returns the reader's error. (False in the code: only the last write of each step is checked, so a writer that fails once and recovers loses output silently.)", "quantifier": "every writer, every token stream", "why_tests_cant": "All failure points of all writers.", "anchors": ["html/generator.go: GenerateCode", "svg/generator.go: GenerateCode"]}
{"id": "C56", "title": "GenerateCode writes valid Go", "statement": "For every well nested input the source text that GenerateCode writes lexes and parses as one Go variable declaration whose expression makes exactly the calls the document asks for, in order. (False in the code for names containing a double quote, a backslash or a line end, which are written into literals unescaped.)", "quantifier": "every well nested input of any size and depth", "why_tests_cant": "The output is Go source; all inputs.", "anchors": ["html/generator.go: GenerateCode", "svg/generator.go: GenerateCode"]}
{"id": "C57", "title": "Generated code renders the input again", "statement": "Running the code that GenerateCode writes for a well nested document with usable names gives a node that renders the document: same tags, attributes, text and comments in the same order. (False in the code for values of boolean attributes such as translate=\"no\", which are dropped.)", "quantifier": "every well nested document, every context", "why_tests_cant": "A round trip over two programs, for all documents.", "anchors": ["html/generator.go: GenerateCode, mappings", "svg/generator.go: GenerateCode, mappings", "element.go", "attribute.go"]}
{"id": "C58", "title": "Data cannot bring tags or attributes into a page", "statement": "Take any template built through the API from element names A and attribute names B, with elements, attributes, conditionals, iterations, collections, user functions and Imperative functions, whose raw bytes are harmless. Whatever strings the data holds, the page it renders is well formed (every element ended, properly nested, no attribute twice in a tag), and every start tag an HTML reader finds in it has its name in A and its attributes in B.", "quantifier": "every such template, every context and data, every user function", "why_tests_cant": "Safety against every template and all data; an injection needs just one counterexample.", "anchors": ["element.go", "attribute.go", "text.go", "value.go", "conditional.go", "iterate.go", "collection.go", "imperative.go", "html/document.go"]}
{"id": "C59", "title": "A template reads only what it refers to", "statement": "What a template can write depends only on the data entries named by its DynamicValueKey, When and IterateKey parts (and the cargo, if it uses the key \".\"): adding, changing or removing any other entry of the data or of a map item changes nothing. A template with user functions has the same property when the functions do.", "quantifier": "every template without ContentCollect and Imperative, every pair of contexts", "why_tests_cant": "Relates two renders for all templates and all data.", "anchors": ["value.go: DynamicValueKey", "conditional.go: When", "iterate.go: IterateKey", "element.go", "attribute.go"]}
{"id": "C60", "title": "Parts with the same output are interchangeable", "statement": "If two nodes that bring no attributes write the same in every context, replacing one by the other in any number of places of a template does not change what the template writes. (False in the code when one of them is a Conditional: its condition can overwrite conditions of attributes next to it.)", "quantifier": "every pair of nodes, every template and every set of places in it, every context", "why_tests_cant": "A congruence over all templates; it quantifies over contexts of use.", "anchors": ["element.go: attributesAndContents", "conditional.go", "collection.go", "iterate.go", "html/document.go"]}
{"id": "C61", "title": "An Imperative function writes exactly what its calls say", "statement": "An Imperative node can write w exactly when w consists of one piece per call the function makes on its ImperativeContext, in order: WriteString its escaped text, WriteRaw its bytes, WriteNodes the nodes, Start the start tag, End the end tag of the innermost open element, EndAll those of all open elements. Imperative(nil) writes nothing.", "quantifier": "every function, every sequence of calls, every context", "why_tests_cant": "All call sequences of any length.", "anchors": ["imperative.go"]}
{"id": "C62", "title": "ContentCollect writes the nodes its function returns", "statement": "A ContentCollect node writes what the nodes its function returns write, in order, ignoring nil nodes and attributes: the same as a Collection of these nodes. ContentCollect(nil) writes nothing.", "quantifier": "every function, every list of nodes, every context", "why_tests_cant": "All results the function may return.", "anchors": ["collection.go", "collection.go"]}
{"id": "C63", "title": "Nil nodes are ignored", "statement": "Leaving out the nil arguments of any constructor, or nil nodes returned by user functions, changes nothing. (False in the code: When, Conditional, Iterate, IterateKey and IterateYield panic on nil nodes, and a Document whose head holds only nils still has a head.)", "quantifier": "every constructor, every argument list", "why_tests_cant": "All positions of nil in all argument lists.", "anchors": ["element.go", "attribute.go", "text.go", "conditional.go", "iterate.go", "collection.go", "imperative.go", "html/document.go"]}
{"id": "C64", "title": "Texts in the data do not change the structure of a page", "statement": "Render one template with two sets of data that have the same keys, flags and list lengths but any texts and numbers. An HTML reader finds the same start tags, end tags, comments and attribute names in the same order in both pages; only texts and attribute values differ.", "quantifier": "every template built through the API with harmless raw bytes, every pair of data of the same shape, every user function that keeps to shapes", "why_tests_cant": "Relates two renders and a reader, for all templates and all data.", "anchors": ["element.go", "attribute.go", "text.go", "value.go", "conditional.go", "iterate.go", "collection.go", "imperative.go"]}
{"id": "C65", "title": "Repeated class-like attributes are joined", "statement": "Calling a function like html.Class or htmx.Vars any number of times for one element writes one attribute whose value is all the arguments of all calls in order, separated by the function's delimiter; the variables of htmx.Vars are written as name, colon, value, separated by commas.", "quantifier": "every delimited attribute function, every number of calls and arguments, every element name", "why_tests_cant": "All numbers of calls with all arguments.", "anchors": ["attribute.go", "html/attributes.go", "svg/attributes.go", "htmx/attributes.go"]}
{"id": "C66", "title": "A browser reads exactly the style declarations made", "statement": "Whatever texts css property functions get for values, a browser that reads the element finds one style attribute in which a CSS reader finds exactly these properties with exactly these values. (False in the code: a semicolon in a value starts another declaration, so data can bring in declarations; an open quote or bracket swallows the next ones.)", "quantifier": "every list of property functions and arguments, every context", "why_tests_cant": "All values, read by two parsers.", "anchors": ["css/properties.go", "css/units.go", "attribute.go"]}
{"id": "C67", "title": "Constants stand for what they say", "statement": "The constants of package css are read back by a CSS reader as they are, alone or followed by Important. Every htmx constant AttrX is the name of the attribute that function X makes; On with EventX makes the attribute that OnX makes; all constants are written without change.", "quantifier": "every constant, every property function, every list of them", "why_tests_cant": "The link between constants and functions is checked for all of them, and the constants in every combination with properties.", "anchors": ["css/constants.go", "htmx/constants.go", "htmx/attributes.go"]}
{"id": "C68", "title": "Functions with side effects run in document order", "statement": "User functions may change the data, the cargo, maps and other memory. Rendering plays the template from start to end: each function is called once at each place where it stands, attributes before content, conditions of a tag before its attributes, items of an iteration one after the other, and what a function changes is seen by everything that comes later in the document. In a template without conditions and iterations the calls made are exactly the functions standing in it, in order; paragraphs with an id from a counting function are numbered 1, 2, 3 and so on as in the documentation. What a function given to IterateYield writes itself, such as separators, stands between the items where it writes it.", "quantifier": "every template, every user function with any side effects (that reports no error), every context", "why_tests_cant": "All side effects of all functions in all templates.", "anchors": ["README.md", "value.go", "attribute.go", "element.go", "conditional.go", "iterate.go", "collection.go", "imperative.go", "html/document.go"]}
{"id": "C69", "title": "Templates can be rearranged by laws", "statement": "A collection inside a collection can be spliced in; the nodes of a conditional (or When) can be parted among two with the same condition; conditionals around the same nodes can change places, and the same one twice is the same as once; nodes under a key and under its negation are the nodes without any condition; an iteration over nodes is an iteration over their collection; a text can be parted, written as a fragment, or nested in a text or value. In each law both sides can write exactly the same output, and one can replace the other as a part of a template.", "quantifier": "all lists of nodes, all functions that only compute, all contexts", "why_tests_cant": "Equality of outputs for every template, function and context.", "anchors": ["collection.go", "conditional.go", "iterate.go", "text.go", "fragment.go", "value.go"]}
{"id": "C70", "title": "Valid UTF-8 in, valid UTF-8 out", "statement": "If the texts in the template, in the data and returned by the user functions are valid UTF-8, then every single call of Write gets valid UTF-8 (no character is torn apart) and the page is valid UTF-8. Constructors called with valid UTF-8 make such nodes. Escaping replaces characters as its table says, whatever the lengths of their encodings. The same holds for ASCII and for any class of texts that contains the library's own markup and is closed under escaping.", "quantifier": "every node, every writer, every state, every user function also with side effects, every sequence of characters", "why_tests_cant": "All characters of Unicode, all templates, all data.", "anchors": ["value.go", "attribute.go", "element.go", "text.go", "imperative.go", "iterate.go", "collection.go", "html/document.go"]}
{"id": "C71", "title": "Nodes say what they are", "statement": "Name() and Type() of a node made by Element or VoidElement are the name asked for and ElementNode, and the node writes a start tag of exactly that name; likewise for the attribute constructors and the attribute written. The name of every other node is not a valid name, so no program that looks at names takes it for an element or attribute; apart from processing instructions such names tell the type.", "quantifier": "every name, every contents, every node", "why_tests_cant": "All names and all nodes.", "anchors": ["aitch.go", "element.go", "attribute.go", "text.go", "comment.go", "fragment.go", "pi.go", "collection.go", "conditional.go", "imperative.go", "iterate.go", "html/document.go"]}
{"id": "C72", "title": "Writing with calls and writing with nodes", "statement": "A page part declared with NewElement and NewVoidElement, nested to any depth, writes the same as the corresponding Start, WriteString, WriteRaw, WriteNodes and End calls in an Imperative function; building the elements leaves the attribute nodes alone. Conversely, whatever calls an Imperative function makes (EndAll, superfluous End calls and nil nodes included), if it leaves no element open then there is a declared page part that writes the same. (Every name once per element; only the last value of a delimited attribute may be empty.)", "quantifier": "every tree of elements, every list of calls, all attributes that fit, every context", "why_tests_cant": "All trees and all sequences of calls; tests compare single pages.", "anchors": ["imperative.go:Start", "imperative.go:End", "imperative.go:EndAll", "imperative.go:WriteNodes", "element.go:NewElement", "element.go:NewVoidElement"]}
{"id": "C73", "title": "Start calls do not disturb the attributes they are given, or each other", "statement": "Start collects, in the arrays behind the slices, the values of its attributes as described for lists of values (C26, C61, C72), whatever the capacities, and changes no slice of any attribute. A call made between the collecting and the writing of another call does not change what that one writes: false, because Start appends to the value slices of plain attributes, whose spare capacity all calls share; true unless both calls append to the same plain attribute (they are also given a delimited attribute of its name) and its slice has spare capacity; attributes made from arguments that are not nil and give one value each have none.", "quantifier": "all attributes and layouts of their slices in memory, every growth policy of append, all pairs of calls", "why_tests_cant": "Aliasing of spare capacity shows only for particular capacities and overlapping calls.", "anchors": ["imperative.go:Start", "attribute.go:NewAttribute", "value.go:newValues"]}
{"id": "C74", "title": "Boolean attributes of HTML", "statement": "The attribute functions of package html that take no value are exactly those of the attributes HTML defines as boolean: false, because Spellcheck, Translate and Hidden take none either (spellcheck=\"false\" cannot be written with html.Spellcheck); apart from these three it holds. The functions of svg and htmx always make attributes with values.", "quantifier": "all attribute functions of html, svg and htmx, all arguments", "why_tests_cant": "A claim about every function of the packages, against the standard's list; tests check single functions.", "anchors": ["html/attributes.go", "html/attributes.go:Spellcheck", "html/attributes.go:Translate", "svg/attributes.go", "htmx/attributes.go"]}
{"id": "C75", "title": "From a page to code and back to the page", "statement": "A page that was rendered, read as HTML and passed through GenerateCode, gives code that builds and renders the same page: false in general (the code for <br> does not compile); true for all pages of trees without void elements, blank texts, upper-case names, boolean attributes with values, or text to be escaped where readers do not decode. It also holds from node to node: data keys are replaced by their values.", "quantifier": "all trees of elements, attributes, texts, comments and doctypes that stay; both packages; every table of character references; every context", "why_tests_cant": "All pages; composes rendering, reading and code generation.", "anchors": ["html/generator.go:GenerateCode", "svg/generator.go:GenerateCode", "element.go:Render", "text.go", "comment.go"]}
{"id": "C76", "title": "Template actions show their node's output alone, wherever they stand", "statement": "Executing a template replaces each {{name .}} by the output of its node and nothing else, whether the action stands in text, inside a tag, in an attribute value, in a script or in a style.", "quantifier": "every template, node map, place of an action and context", "why_tests_cant": "Tests use actions in text and one plain attribute; which nodes may stand where is a matter of all node types and places.", "anchors": ["template.go: contextFunc, Execute"]}
{"id": "C77", "title": "Context.Error is the first error of the rendering", "statement": "After rendering a node with user functions that have no errors of their own and hide none, Context.Error (documented as the first encountered error during rendering) and the error returned by Render are the first error that the writer returned, and nil if it returned none.", "quantifier": "all nodes, all writers (failing at any call, with any errors), all states, all user functions that bring no errors and do not clear Context.Error", "why_tests_cant": "Which error survives depends on how every combination of nested nodes passes errors on after every possible point of failure; tests fail one write of a few trees.", "anchors": ["context/context.go: Context.Error, Context.Write", "value.go: Value.render", "iterate.go", "collection.go", "conditional.go", "imperative.go"]}
{"id": "C78", "title": "Templates can be executed in parallel", "statement": "When several goroutines execute templates at the same time (the same template, or templates sharing nodes), each with its own writer, data and cargo, then each Execute returns the error and makes the calls to its writer that it would alone, whatever the interleaving; shared memory is left alone, and an execution that would end alone ends.", "quantifier": "any number of goroutines, all templates and nodes, all writers, all data, all interleavings of their effects with harmless changes of memory by other code, all quiet user functions", "why_tests_cant": "Tests run a few schedules; interference would show only under particular interleavings.", "anchors": ["template.go: Template.Execute, contextFunc"]}
{"id": "C79", "title": "Rearrangements are safe with side effects too, when no function is called more or less often", "statement": "Also for user functions that change memory: splicing a collection into the collection around it, putting the nodes of a Conditional, When, Iterate, IterateKey or IterateYield into a Collection, parting a Text into two, writing it as a Fragment, or giving it as contents of a Text or a value, changes neither what is written nor what is left in memory. Asking a condition once more (two Conditionals in place of one, or one inside the other) can.", "quantifier": "all lists of nodes built through the API, all contents, all user functions with side effects that report no error, all contexts", "why_tests_cant": "Tests use functions without side effects and a few templates.", "anchors": ["collection.go: Collection", "conditional.go: Conditional, When", "iterate.go: Iterate, IterateKey, IterateYield", "text.go: Text", "fragment.go: Fragment", "value.go: NewConcatValue"]}
{"id": "C80", "title": "A panic in a user function ends the rendering and does no other harm", "statement": "When a user function (or the writer) panics during Render, the panic reaches the caller of Render; what the writer got before it is the beginning of what it would have got had the function returned (whatever it had returned). If the functions leave shared memory alone, no element, attribute or map is half changed, so the same nodes can be rendered again as if nothing had happened. The context given to Render keeps its Data, Cargo and parents, even when the panic happened inside an iteration. In a template a panic during the rendering of a node becomes an error returned by Execute, and the parts after the node are not executed.", "quantifier": "all nodes, writers, user functions with any effects, all sets of calls that panic and states they leave behind, all contexts; all templates", "why_tests_cant": "The tests contain no panicking function, and could try only a few places to panic at.", "anchors": ["iterate.go: iterator.Render, yieldIterator.Render", "imperative.go: imperative.Render", "conditional.go: conditional.Render", "value.go: Value.render", "template.go: Execute, contextFunc"]}
{"id": "C81", "title": "Once the context has an error nothing more is written", "statement": "A node rendered in a context that already has an error (an earlier node failed, or a user function set it) makes no call of the writer, leaves the context alone and returns that error.", "quantifier": "all nodes built with the constructors, all writers, user functions and contexts with an error", "why_tests_cant": "The tests check that single node types return an error; not what arbitrary trees do with the writer after one.", "anchors": ["value.go: Value.render", "context/context.go: Write", "element.go: Render", "iterate.go: iterator.Render", "collection.go: collection.Render"]}
{"id": "C82", "title": "NewTemplate reports what is wrong by its error", "statement": "NewTemplate returns an error for a template text that uses an unknown or nil node and never panics; MustNewTemplate panics just when NewTemplate returns an error. (False in the code: a node registered under a name that is not a Go identifier, such as my-node, makes NewTemplate panic, even if the text does not use it.)", "quantifier": "every template text and every node map", "why_tests_cant": "All names and all maps.", "anchors": ["template.go: NewTemplate, MustNewTemplate, contextFuncMap"]}
{"id": "C83", "title": "Nodes keep what they were given", "statement": "A node shows the text, attribute values and names it was given when it was built: what a program does afterwards with the byte slices it passed to the library has no effect on the output. The same holds for the names passed to Start in an imperative function. (False in the code: slices are kept, not copied, so a reused buffer changes what a node writes, can make an attribute name appear twice in a tag and can make End write another name than Start did.)", "quantifier": "every program of constructor calls and writes into its slices, every memory, every call whose result is rendered, every rendering; every imperative function and every state", "why_tests_cant": "All interleavings of building and reuse of buffers, all node types.", "anchors": ["value.go: valueToBytes, newValue", "attribute.go: NewAttribute, NewBooleanAttribute, NewDelimitedAttribute", "element.go: NewElement, NewVoidElement, addAttributes", "imperative.go: Start, End, EndAll"]}
{"id": "C84", "title": "Functions given as content are called once, when the node is made", "statement": "A func() any and the String method of a fmt.Stringer among the arguments of a constructor are called exactly once, while the constructor runs, from the first argument to the last (a function returned by a function right after it); the node is the one made of the values they gave, so it shows the same text however often and wherever it is rendered. A constructor that rejects its name calls nothing.", "quantifier": "every constructor that takes contents or values, every list of arguments, all functions and String methods (they may change the program's state, and what they give may depend on it), every state; every later rendering", "why_tests_cant": "Call counts and order for all arguments and all stateful functions; later renderings in all contexts.", "anchors": ["value.go: newValues, newValue, valueToBytes, NewValue, NewConcatValue", "element.go: contentsToNodes, NewElement, NewVoidElement, Element, VoidElement", "attribute.go: NewAttribute, NewDelimitedAttribute, Attribute, DelimitedAttribute", "css/properties.go: styleAttribute"]}
{"id": "C85", "title": "Line ends reach the browser", "statement": "Texts, attribute values and comments with line breaks appear in the browser as given. (False for carriage returns, and for a line feed at the start of a pre, listing or textarea, which browsers drop.) What does hold: a browser sees the page exactly as an HTML reader does, with CR LF and CR replaced by LF within each text, value and comment, and without that first line feed; it is exact when neither occurs; and line ends never bring a tag or an attribute into a page.", "quantifier": "every tree of elements, attributes, texts, comments and doctypes made of strings and data keys; every tidy template, context and data; every table of character references", "why_tests_cant": "All strings, including line ends split between neighbouring texts or around NUL bytes, in all trees and templates.", "anchors": ["value.go: htmlEscapeString", "text.go: Text", "element.go: NewElement", "attribute.go: NewAttribute"]}
{"id": "C86", "title": "A node type of one's own stands for what it renders", "statement": "If the Render method of a user's own node type returns another node's Render(ctx), then a node of that type behaves exactly like the other node wherever it stands in a template: the same writes, in the same order, the same effects and the same error, with any writer and any user functions. More generally, nodes that run in the same way can be exchanged for each other anywhere. This needs that the other node brings no attributes to the element around it: attributes do not come through such a type. A Render method that uses ctx.Writer itself writes its data in one call even when ctx.Error is set, and leaves ctx.Error as it was.", "quantifier": "every user-defined node type that delegates, also to a node chosen at render time; every template built through the API with the node in any number of places; every writer (failing or not), all user functions, all states", "why_tests_cant": "All surroundings (elements, collections, conditionals, iterations, documents, nested), all writers and failures.", "anchors": ["aitch.go: Node", "element.go: (*element).Render, NewElement, attributesAndContents", "collection.go: (*collection).Render", "conditional.go: (*conditional).Render", "iterate.go: (*iterator).Render, (*yieldIterator).Render", "html/document.go: (*document).Render", "imperative.go: Imperative, (*imperative).Render, ImperativeContext"]}
{"id": "C87", "title": "Of attributes whose names differ only in case the last one counts", "statement": "If an attribute is declared several times, the browser sees the value that was declared last, also when the declarations spell its name in different case (id, ID). (False: names are compared exactly, both are written, and a browser keeps the first.) What does hold: the browser sees, for each attribute, the value declared last under the spelling that comes first; so it sees the last value if no two names differ only in case.", "quantifier": "every list of attributes, plain or boolean, with valid names in any case, repeated any number of times, with strings and data keys as values; every context and table of character references", "why_tests_cant": "All lists of names and spellings; the outcome depends on the order of first and last declarations of each spelling.", "anchors": ["element.go: addAttributes, NewVoidElement, renderAttributes", "attribute.go: Attribute, NewAttribute, NewBooleanAttribute"]}
{"id": "C88", "title": "Element() makes void elements whatever the case of their names", "statement": "An element made with Element(name) is read by a browser as the HTML element of that name in any case: void elements have neither content nor an end tag, all others have both. (False: Element(\"BR\") writes its contents and </BR>, which a browser takes for another line break.) What does hold: it is so unless the name is that of a void element in another case than lower case; and then the start tag, the contents and an end tag are read.", "quantifier": "every valid name in any case, list of attributes and contents of elements, texts and comments made of strings and data keys; every context, strictness setting and table of character references", "why_tests_cant": "All names, contents and contexts; it needs the meaning of the bytes to a browser, not the bytes alone.", "anchors": ["element.go: Element, voidElementNames, NewElement, NewVoidElement"]}
{"id": "C89", "title": "An attribute type of one's own takes part like the attribute it stands for", "statement": "Giving an attribute wrapped in a type of one's own whose Type, Name and Render methods are those of the attribute (such as struct{ aitch.Node }) instead of the attribute itself makes no difference to rendering. (False: a conditional wrapped attribute with the name of a delimited one is dropped from the tag, and wrapped delimited attributes do not join.) What does hold: it makes no difference when every wrapped attribute is boolean, or is plain and has no delimited attribute of its name in the same element, or has no other attribute of its name there. With any Render methods, each name is rendered once, in the place of its first declaration, by one call of the Render method of its last declaration; an element then renders each of its contents that is not an attribute, in order, by one call of Render, and its end tag. With conditional nodes (up to three in each other) each name is rendered at most once, by the Render method of its last conditional declaration that is in effect, or else of its last one without condition. Collections, conditionals and iterations do not themselves call the Render methods of attributes given to them. Start only writes the name.", "quantifier": "every template of elements, attributes (each wrapped or not), collections, conditionals, iterations, documents and other nodes, nested to any depth; every writer, user function and state; for the statements after that every list of attributes with any Render methods (the package's delimited attributes left out) and of other contents", "why_tests_cant": "All templates and all subsets of wrapped attributes; all Render methods.", "anchors": ["aitch.go: Node", "element.go: attributesAndContents, addAttributes, renderAttributes", "conditional.go: Conditional, evaluate", "imperative.go: Start"]}
{"id": "C90", "title": "SVG and other XML pages are well-formed", "statement": "A tree of elements with valid names, attributes with values, texts and comments as XML allows them, in characters that XML allows, is written as a well-formed XML document, and an XML reader gets from it what was meant. The same for whole templates without void elements, boolean attributes, comments and document types (all elements and attributes of package svg can be used), with data that is escaped: whatever the data, the page is well-formed and its element and attribute names are those of the template. (False in one respect: a tab or line end in an attribute value is read as a space, a carriage return as a line end, and comments come back escaped. Otherwise it holds.)", "quantifier": "all trees, templates, contexts, user functions and data", "why_tests_cant": "Tests compare a few outputs with strings; they do not parse the result with an XML reader, and cannot try all data.", "anchors": ["element.go: element.Render, NewElement", "attribute.go: attribute.Render, delimitedAttribute.Render", "text.go: text.Render", "comment.go: comment.Render", "value.go: htmlEscapeString, valueToBytes", "svg/elements.go: Svg and the others", "svg/attributes.go: Fill and the others"]}
{"id": "C91", "title": "Rendering into a buffer is all or nothing, and otherwise the same", "statement": "A component (a node type of the user's own) may render a node into a buffer, with context.New(&buf, ctx.Data, ctx.Cargo), and then write the buffer to its own context. If the rendering succeeds, the page gets, in one call of its writer, bytes that the node itself could have written in that place; this holds in loops too, where the outer context has a parent and the inner one has none, if no function looks at ctx.Parent. If it fails, nothing of it reaches the page and the error is returned (or another node is rendered as if it alone had been there). What the inner rendering does to its context does not reach the outer one. The buffer may also be returned by a DynamicValueFunc, and so stand in an attribute value or a comment. Bytes kept from such a rendering may be written again later, as long as everything the node refers to is the same.", "quantifier": "all nodes, all user functions (for the part about the bytes: all functions that only compute and do not look at ctx.Parent), all writers of the page, all states, all errors", "why_tests_cant": "An error can occur after any prefix of the output; tests sample a few templates and places, and the claim about keeping bytes is about all later states.", "anchors": ["context/context.go: New, Write, Context.Parent", "aitch.go: Node.Render", "iterate.go: iterator.Render, yieldIterator.Render", "imperative.go: WriteRaw"]}
{"id": "C92", "title": "JSON reaches the browser as JSON", "statement": "A JSON text given as a string (or through keys of the data) to an attribute such as hx-vals, hx-request, hx-headers or data-* is read by a browser as a JSON text that says the same, wherever the element stands and whatever quotes, tags, references and line ends are in the JSON. Likewise a JSON text in a script element is read as JSON, and the header maps given to htmx.Headers are written as a JSON object, as its documentation says.", "quantifier": "all JSON texts, all trees of elements, attributes, texts and comments with valid names; all lists of header maps; all tables of character references with the five that the code uses; all heaps and states", "why_tests_cant": "JSON texts and pages are unbounded; that escaping, the browser's decoding and its normalisation of line ends together keep the meaning of every JSON text is a statement about all of them. A test that compares bytes does not notice that the bytes are no JSON.", "anchors": ["value.go: htmlEscapeString", "attribute.go: Render", "htmx/attributes.go: Headers, HeadersMap.serialize, Vals, Request", "html/elements.go: Script"]}
{"id": "C93", "title": "Data cannot choose the scheme or site of a link whose start the template fixes", "statement": "If every attribute of a template that a browser takes for a URL (href, src, action, hx-get, ...) begins with text of the template after which the scheme of the URL is settled (such as \"/users/\", \"?q=\" or \"https:\"), or is just text, then whatever the data, user functions and yields contain, every such URL in the page as a browser reads it has one of the schemes of those texts: no data turns a link into javascript: or data:. If the text also settles that the URL is on the site of the page (\"/users/\", not \"/\"), no data makes it lead to another site. These conditions are exact: for a link made of a text and a value, the scheme (or site) is independent of the data precisely if the text settles it. In general, what the beginning of the value settles is settled in the page. The library itself does not look at URLs: a link that begins with data has whatever scheme the data has.", "quantifier": "all templates built with the API from fixed element and attribute names (as in C58), all data, all user functions, all sets of URL attributes and allowed schemes; for the exactness: all texts, all keys, all states with a string under the key", "why_tests_cant": "The data are unbounded and chosen by an attacker, the reading of URLs (ignored tabs, line ends and leading control characters, case, colon after letters) has many cases, and the escaping, the reader's decoding of references and the line end normalisation of browsers lie between the value and the URL.", "anchors": ["attribute.go: NewAttribute, attribute.Render", "value.go: Value.render, htmlEscapeString, DynamicValueKey", "element.go: NewElement"]}
{"id": "C94", "title": "GenerateCode uses the package's own functions", "statement": "For every element and attribute that the html (svg) package has a function for, GenerateCode writes a call of that function, in whatever case the name is written and without a value exactly for the functions that take none; a name without a function is passed on unchanged to aitch.Element or aitch.Attribute. (False in the code: html.Ruby, html.Track, html.OnTouchStart and about forty others are missing from its tables, and SVG names with capitals are never found; the list of those is exact.)", "quantifier": "both packages, all their element and attribute functions, all spellings of names, all attribute values", "why_tests_cant": "It relates four tables with several hundred entries each, for every spelling of each name; the tests of GenerateCode use a handful of tags.", "anchors": ["html/generator.go: GenerateCode, mappings", "svg/generator.go: GenerateCode, mappings", "html/elements.go: all functions", "html/attributes.go: all functions", "svg/elements.go functions", "svg/attributes.go functions"]}
{"id": "C95", "title": "The DOM of a page is the tree it was built from", "statement": "A page built with html.Document from a language, attributes, elements, texts and comments, whose strings are literals or keys of the data, is read by a browser's HTML parser (tokenizer and tree construction, with the insertion modes from initial to after-after-body, scopes, implied end tags, tables) into a DOM that has exactly those elements in that nesting, with those attributes, and those texts joined: no element is moved, closed early, ignored or invented (but for the head that is always there). This holds whenever the elements may stand where they were put (no block in an open p, no li directly in an li, table parts in tables, ...), whatever the strings are.", "quantifier": "all pages (any nesting and size), all strings and data, all readers' tables of character references, all healthy environments", "why_tests_cant": "Tests compare bytes; whether a browser's error recovery rearranges the nodes depends on the whole path of open elements and ranges over all pages.", "anchors": ["html/document.go: Document", "element.go: NewElement, NewVoidElement", "text.go: Text", "comment.go: Comment", "attribute.go: NewAttribute, NewBooleanAttribute"]}
{"id": "C96", "title": "No data can make a browser rearrange a page", "statement": "A page made with html.Document from a template - elements, attributes, texts, comments, conditions, iterations, ContentCollect and Imperative functions - in which every element is put where the HTML standard lets it stand, is read by a browser into a DOM with the same nesting as the tags that were written, whatever the data and the context are: one html element with one head and one body, nothing moved, closed early, ignored or invented, and no element or attribute whose name is not one of the template's.", "quantifier": "all templates (any nesting and size) of which every element may be where it is put, all data that is escaped or harmless, all user functions, all contexts without an error, all readers' tables of character references", "why_tests_cant": "The number of times a part is repeated, the branches taken and all strings come from data; tests try a few, and compare bytes and not what a browser makes of them.", "anchors": ["html/document.go: Document", "element.go: NewElement, NewVoidElement, Render", "conditional.go: Conditional, When", "iterate.go: Iterate, IterateKey, IterateYield", "collection.go: ContentCollect", "imperative.go: Imperative"]}
{"id": "C97", "title": "The page of generated code shows what the HTML input shows", "statement": "Take any HTML (or SVG) text, let GenerateCode make code of it, run the code and render its node: a reader of HTML finds in the page what it finds in the input, in the same order - the same start tags and end tags, the same attributes with the same values, the same texts (apart from blank ones), comments and doctypes.", "quantifier": "All input texts (of bytes), both packages, all tables of character references, all starting memories, all healthy environments and all states without an error.", "why_tests_cant": "The input is any text: tests read a handful of documents, and compare the code with the code expected rather than the page with the input.", "anchors": ["html/generator.go: GenerateCode", "svg/generator.go: GenerateCode"]}
{"id": "C98", "title": "A browser finds exactly the classes that are in effect", "statement": "Give an element any number of html.Class calls, some alone, some under When or Conditional (and other contents that bring no attributes). Whatever context it is rendered in, the list of classes that a browser makes of the page's tag - the class attribute, its references decoded, split at blanks - is the classes of the calls that stand alone, in order, then the classes of the calls whose conditions hold, in order. No class is lost, doubled, run together with its neighbour or changed by escaping, and an element without classes has none.", "quantifier": "All lists of calls with any strings, all keys and condition functions, all other contents without attributes, all element names, all tables of character references, all contexts without an error.", "why_tests_cant": "The classes depend on which of the conditions hold, on merging of the calls into one attribute in memory, on the delimiter rule for empty parts, on escaping, and on how a browser reads all this: any number of calls and any strings.", "anchors": ["html/attributes.go: Class", "attribute.go: NewDelimitedAttribute", "attribute.go: delimitedAttribute", "element.go: renderAttributes", "conditional.go: When", "conditional.go: Conditional"]}
{"id": "C99", "title": "The library does not panic of itself: no index or slice expression is ever out of range", "statement": "With the bounds checks that Go makes at every index and slice expression, building elements, escaping strings, making values and conditions, and rendering any node made by the API - in any state, whatever the writer and the user functions do, whether the rendering returns or not, with any calls of Start, End and EndAll in any order - never hits one that is out of range, and does exactly what it does without the checks.", "quantifier": "All contents, strings, numbers, keys and heaps; all nodes made by the API; all states and environments (writers, user functions, orders of maps) whose functions use nodes made by the API; all depths of nesting.", "why_tests_cant": "An index out of range needs an unlucky combination of repeated attribute names, conditions, map orders and calls; tests try a few.", "anchors": ["element.go: renderAttributes", "element.go: addAttributes", "element.go: contentsToNodes", "value.go: htmlEscapeString", "value.go: NewValue", "imperative.go: Start", "imperative.go: End", "imperative.go: EndAll", "text.go: Nbsps", "conditional.go: When", "iterate.go: IterateKey", "html/generator.go: GenerateCode", "htmx/attributes.go: HeadersJS"]}
{"id": "C100", "title": "Functions may write and render as the document is written: everything stands where they stand", "statement": "The user's functions are given the context: besides returning something and changing memory they may write to its writer, and render any node with it, whose functions may do the same, and so on. Then (writer healthy, no function reporting an error) rendering returns nil, and the output is the document from start to end: a function is called when its place is reached, with all that comes before that place already written and nothing that comes after it; what it writes or renders itself comes next, then what it returns, then the rest. A function that renders a node and returns nothing stands for that node.", "quantifier": "All nodes made by the API; all user functions of all kinds (dynamic values, conditions, ContentCollect, Iterate, IterateYield, Imperative), whatever they compute, remember, write and render, to any depth, also depending on what has been written so far; all states without an error; all orders of map iteration.", "why_tests_cant": "Tests use functions that only return something; that nothing is buffered, evaluated early or written twice when functions write in the middle of an attribute, a tag or an iteration, is a statement about all such functions and places.", "anchors": ["value.go: render", "conditional.go: evaluate, Render", "collection.go: ContentCollect, Render", "iterate.go: Render", "imperative.go: Render", "element.go: renderAttributes, Render", "context/context.go: Write"]}
{"id": "C101", "title": "Failing writers, when user functions themselves write and render", "statement": "Let user functions write to the context they are given and render nodes with it. With a writer that crashes in the middle, what was accepted before is a prefix of what a healthy writer accepts, whatever the functions do. If the writer stays failed, and the functions never clear ctx.Error and set it when a write of their own fails, then a failed write makes Render return an error. (The second is false in the code: Iterate returns nil without looking at ctx.Error when its function returns no items, so an error noted by that function is lost; it holds when the functions given to Iterate do not write.) Errors are not made up: if the functions bring none of their own, the error returned is one that the writer returned, and with a writer that repeats its first error it is the first.", "quantifier": "All nodes; all user functions of all kinds (dynamic values, conditions, ContentCollect, Iterate, IterateYield, Imperative), whatever they compute, write and render, to any depth; all crash points of the writer; all states.", "why_tests_cant": "Every write, also each one made by a function in the middle of an attribute or a loop, is a possible failure point, and functions may react to the failure in any way.", "anchors": ["context/context.go: Write", "value.go: render", "iterate.go: Render", "collection.go: ContentCollect, Render", "conditional.go: Render", "imperative.go: Render", "element.go: Render"]}
{"id": "C102", "title": "User functions are told what their writes and renders returned, and their results are used as documented", "statement": "A user function that writes to the context or renders nodes with it gets exactly the count and error that the writer returned, and exactly the error that Render of the node returned. What it returns is then used: the bytes of a dynamic value are written and the error of that write is the error of the value; the nodes of a condition are rendered if and only if it returned true; the nodes of ContentCollect are all rendered, without nils and attributes; for each item of Iterate the nodes are rendered, up to the first error; what IterateYield's function yields is rendered at that point, with an error of it in ctx.Error for the function to see; the error that the function of Imperative returns is the error of the node.", "quantifier": "All functions, whatever they compute, write and render, to any depth; all writers, also failing and recovering ones; all states.", "why_tests_cant": "Functions branch on what they are told, in any way; the writer can fail at any call and recover at any other.", "anchors": ["value.go: render", "conditional.go: Render", "collection.go: Render", "iterate.go: Render", "imperative.go: Render"]}
{"id": "C103", "title": "Concurrent renders do not interfere, also when user functions write and render", "statement": "Goroutines may render at the same time, each with its own context and writer, nodes that share elements, attributes and user functions, where the functions write to the context and render further nodes with it. However their steps interleave, also in the middle of calls of user functions, and whatever other code does to unrelated memory: each goroutine returns the error and makes the writer calls that it would make alone, it finishes if it would finish alone, and shared memory is left as it was.", "quantifier": "Any number of goroutines; all nodes; all functions that do not themselves change shared memory the others depend on; all writers; all interleavings.", "why_tests_cant": "Interleavings cannot be enumerated, and the functions are arbitrary code that calls back into the library.", "anchors": ["aitch.go: Render", "element.go: Render", "value.go: render", "conditional.go: Render", "collection.go: Render", "iterate.go: Render", "context/context.go: Context"]}
{"id": "C104", "title": "Rendering ends, also when user functions render", "statement": "When user functions (of dynamic values, conditions, Iterate, IterateYield, ContentCollect and Imperative) render nodes while a node is rendered, Render returns, with whatever writer and in whatever state, unless the functions give further nodes without end: it returns if following the contents of nodes, the nodes that the functions in them render, and those that ContentCollect functions return, always comes to an end. The same holds of goroutines rendering at the same time. A function that renders the node it belongs to never returns.", "quantifier": "All nodes; all functions that themselves return and whose rendered nodes are well-founded, of any depth and width; all writers and states; any number of goroutines and all interleavings.", "why_tests_cant": "Termination cannot be observed by a test, and the nesting of functions and nodes is unbounded.", "anchors": ["aitch.go: Render", "value.go: render", "conditional.go: Render", "collection.go: Render", "iterate.go: Render", "imperative.go: Render, Start, WriteNodes"]}
{"id": "C105", "title": "A panic in a user function that writes and renders ends the rendering and does no other harm", "statement": "When user functions write to the context and render nodes, a panic of one of them, at any depth of nodes rendered inside functions inside nodes, or of the writer, ends the rendering: Render either returns exactly as it would without panics or panics, and does so in one way only. What was written before, also by the functions, is a prefix of what would have been written had the function gone on, in whatever way. If the functions leave shared memory alone, also when they panic, then no element, attribute or map is left half changed, and the same node, or any other, rendered afterwards behaves as if nothing had happened. The context given to Render is the current context or one of its parents, and its own parents are as they were.", "quantifier": "All nodes; all functions that write and render to any depth; all choices of the functions and writer calls that panic and the states in which they do; all writers and states; all later renders with any context and writer.", "why_tests_cant": "A panic can happen in any call of any function, at any depth of functions rendering nodes that call functions.", "anchors": ["aitch.go: Render", "value.go: render", "conditional.go: Render", "collection.go: Render", "iterate.go: Render", "imperative.go: Render, Start, WriteNodes", "context/context.go: Write"]}
{"id": "C106", "title": "Rendering leaves Data and Cargo of the context alone, also when user functions write and render", "statement": "When user functions write to the context and render nodes: if no function itself changes Data or Cargo of the context it is given, then after Render of any node the context has its previous Data, Cargo and parents, and so has, if a function or the writer panics, the context given to Render, which is then the current context or one of its parents. An Iterate, IterateKey or IterateYield node leaves the outer context alone whatever the functions inside it do to their own contexts, as long as its own function, and the nodes that this renders itself, change neither Data nor Cargo.", "quantifier": "All nodes and nestings of iterations, functions that render and nodes that they render; all functions, writers, states and panics.", "why_tests_cant": "Functions rendering nodes that iterate and call functions nest without bound; a context not restored shows only in some of these nestings.", "anchors": ["iterate.go: (*iterator).Render, (*yieldIterator).Render", "value.go: render", "conditional.go: Render", "collection.go: Render", "imperative.go: Render"]}
{"id": "C107", "title": "Templates behave as promised also when the functions of their nodes write and render", "statement": "When user functions write to the context and render nodes: Execute runs the parts of a template in order, in a new context with the given data and cargo, and stops at the first error of writing text or returned by a node's Render, which it returns. With a healthy writer and functions that leave no error it returns nil, and the output is the template read from start to end, so that what a function writes or renders stands where it is called, behind everything before it. Execute returns if following the nodes that functions render always comes to an end; if no function changes Data or Cargo, then every part finds the given data and cargo. Executions in several goroutines return what they would alone, leave shared memory alone and finish. A panic while a node is rendered becomes an error of Execute, with a prefix of the output; only a panic of the writer in text/template's own writes reaches the caller.", "quantifier": "All templates, nodes, user functions (with any nesting of writes and renders), data, cargo, writers, states, numbers of goroutines, interleavings and panics.", "why_tests_cant": "Templates, nodes, functions and nodes rendered by functions nest without bound, interleavings are infinitely many, and a wrong order of writes of the template and of functions shows only where functions write.", "anchors": ["template.go: (*Template).Execute, contextFunc, contextFuncMap", "context/context.go: New", "value.go: render"]}
{"id": "C108", "title": "Nodes that behave the same can be exchanged anywhere, also in what user functions render", "statement": "Take a program and put one node in the place of another one in any number of places: in the template, in the nodes that user functions render or supply, and in the nodes of html/template templates. If the two nodes bring no attributes and behave the same in the new program (called in the same state, both their Render methods make the same calls of the writer, have the same effects and return the same, or neither returns), then whatever the old template does, the new one does: the same calls of the writer, the same effects, the same error. If they behave the same in both programs, also neither template returns if the other does not. In particular a component (a node type of the user's own) whose Render calls Render of a node may stand anywhere for that node.", "quantifier": "All nodes, templates, places, user functions (with any nesting of writes and renders), writers and states, also when errors are set.", "why_tests_cant": "Places of nodes and nestings of functions that render nodes are unbounded, and the two programs differ in functions, not only in the template; a test compares two given programs in some states.", "anchors": ["aitch.go: Node.Render", "value.go: render", "conditional.go: Render", "collection.go: Render", "iterate.go: Render", "imperative.go: Render, WriteNodes", "template.go: (*Template).Execute"]}
{"id": "C109", "title": "Valid UTF-8 in, valid UTF-8 out, also when user functions write and render", "statement": "If all texts given to the library are valid UTF-8 (in the template, in the data and cargo, and all that user functions write to the writer, write with ImperativeContext, return, yield, or render in nodes, at any depth of nested calls), then the data of every single call of Write is valid UTF-8, whatever the writer does, and so are the texts in memory afterwards; with a writer that takes everything the page is valid UTF-8. The same holds for ASCII, and for every class of texts that has the library's own markup and is closed under escaping; and for html/template templates with nodes in them.", "quantifier": "All nodes, templates, data, writers, user functions (with any nesting of writes and renders) and executions, also those that fail.", "why_tests_cant": "Functions that write between the library's own writes, nested without bound, and all texts of all Unicode characters; a test tries some.", "anchors": ["value.go: htmlEscapeString", "value.go: render", "element.go: Render", "conditional.go: Render", "collection.go: Render", "iterate.go: Render", "imperative.go: Render", "template.go: (*Template).Execute"]}
{"id": "C110", "title": "Data cannot bring tags or attributes into a page, also when user functions write and render", "statement": "Take a template whose element and attribute names come from two lists of valid names, data that is escaped or harmless, and user functions that write and render, where they stand in the template, what may stand there: among elements whole pieces of markup with these names, or tags that they begin and end themselves with anything allowed between them; in attribute values, comments and elements like script only escaped text; for conditions on attributes, which run within a start tag, nothing. Then rendering to a writer that works succeeds, and all that it adds to the output are trees: every element is ended in its place, no attribute stands twice, all names come from the lists. An HTML reader sees exactly these trees, so every start tag and end tag and attribute that it sees has one of the names. The same holds for html/template templates made with NewTemplate that have such nodes among elements, in elements like title, and in quoted attribute values.", "quantifier": "All templates, data, name lists, tables of character references, and all user functions of the six kinds, with any nesting of writes and renders, that keep to the rules.", "why_tests_cant": "What is between the tags that a function writes is written by other functions and nodes, nested without bound; that nothing escapes the structure for any data is a claim about all of them.", "anchors": ["value.go: htmlEscapeString", "value.go: render", "element.go: Render", "attribute.go: Render", "conditional.go: Render", "collection.go: Render", "iterate.go: Render", "imperative.go: Render", "imperative.go: Start", "template.go: Execute"]}
