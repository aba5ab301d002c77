import Verif.Conform.Basic
import Verif.Model.HtmlTables
import Verif.Model.SvgTables
import Verif.Model.HtmxTables
import Verif.Model.CssTables
import Verif.Model.NodeName
import Verif.Model.Htmx
/-
Generated from html/attributes_test.go, html/elements_test.go, svg/attributes_test.go, svg/elements_test.go,
css/properties_test.go, css/units_test.go and htmx/attributes_test.go: the tests of one function with fixed arguments.  A row is the
name of the function, the name that the test requires `Name()` to return, and the output it requires.
-/
namespace Aitch.Conform
open Aitch.Spec

/-- Whether a test passes in the model: type, name and output. -/
def passes (ty : NodeType) (call : Bytes → Arg) (t : Bytes × Bytes × Bytes) : Bool :=
  (match nodeOf (call t.1) with
    | some n => n.type == ty && n.name == t.2.1
    | none => false) &&
  shows Sample.env none (call t.1) == some t.2.2

/-- The arguments of the tests. -/
def foo : List Arg := [str b%"foo"]

/-- html/attributes_test.go — `F("foo")` (173 tests). -/
def htmlFoo : List (Bytes × Bytes × Bytes) := [
  (b%"CrossOrigin", b%"crossorigin", b%" crossorigin=\"foo\""),
  (b%"DateTime", b%"datetime", b%" datetime=\"foo\""),
  (b%"Download", b%"download", b%" download=\"foo\""),
  (b%"Draggable", b%"draggable", b%" draggable=\"foo\""),
  (b%"Accept", b%"accept", b%" accept=\"foo\""),
  (b%"Action", b%"action", b%" action=\"foo\""),
  (b%"Alt", b%"alt", b%" alt=\"foo\""),
  (b%"As", b%"as", b%" as=\"foo\""),
  (b%"AutoComplete", b%"autocomplete", b%" autocomplete=\"foo\""),
  (b%"Charset", b%"charset", b%" charset=\"foo\""),
  (b%"CiteAttr", b%"cite", b%" cite=\"foo\""),
  (b%"Cols", b%"cols", b%" cols=\"foo\""),
  (b%"ColSpan", b%"colspan", b%" colspan=\"foo\""),
  (b%"Content", b%"content", b%" content=\"foo\""),
  (b%"Dir", b%"dir", b%" dir=\"foo\""),
  (b%"EncType", b%"enctype", b%" enctype=\"foo\""),
  (b%"For", b%"for", b%" for=\"foo\""),
  (b%"FormAttr", b%"form", b%" form=\"foo\""),
  (b%"Height", b%"height", b%" height=\"foo\""),
  (b%"Href", b%"href", b%" href=\"foo\""),
  (b%"Id", b%"id", b%" id=\"foo\""),
  (b%"Integrity", b%"integrity", b%" integrity=\"foo\""),
  (b%"Lang", b%"lang", b%" lang=\"foo\""),
  (b%"List", b%"list", b%" list=\"foo\""),
  (b%"Loading", b%"loading", b%" loading=\"foo\""),
  (b%"Max", b%"max", b%" max=\"foo\""),
  (b%"MaxLength", b%"maxlength", b%" maxlength=\"foo\""),
  (b%"Method", b%"method", b%" method=\"foo\""),
  (b%"Min", b%"min", b%" min=\"foo\""),
  (b%"MinLength", b%"minlength", b%" minlength=\"foo\""),
  (b%"Name", b%"name", b%" name=\"foo\""),
  (b%"Pattern", b%"pattern", b%" pattern=\"foo\""),
  (b%"Placeholder", b%"placeholder", b%" placeholder=\"foo\""),
  (b%"PopOver", b%"popover", b%" popover=\"foo\""),
  (b%"PopOverTarget", b%"popovertarget", b%" popovertarget=\"foo\""),
  (b%"PopOverTargetAction", b%"popovertargetaction", b%" popovertargetaction=\"foo\""),
  (b%"Poster", b%"poster", b%" poster=\"foo\""),
  (b%"Preload", b%"preload", b%" preload=\"foo\""),
  (b%"ReferrerPolicy", b%"referrerpolicy", b%" referrerpolicy=\"foo\""),
  (b%"Rel", b%"rel", b%" rel=\"foo\""),
  (b%"Role", b%"role", b%" role=\"foo\""),
  (b%"Rows", b%"rows", b%" rows=\"foo\""),
  (b%"RowSpan", b%"rowspan", b%" rowspan=\"foo\""),
  (b%"SlotAttr", b%"slot", b%" slot=\"foo\""),
  (b%"Src", b%"src", b%" src=\"foo\""),
  (b%"SrcSet", b%"srcset", b%" srcset=\"foo\""),
  (b%"Step", b%"step", b%" step=\"foo\""),
  (b%"TabIndex", b%"tabindex", b%" tabindex=\"foo\""),
  (b%"Target", b%"target", b%" target=\"foo\""),
  (b%"Title", b%"title", b%" title=\"foo\""),
  (b%"Type", b%"type", b%" type=\"foo\""),
  (b%"Value", b%"value", b%" value=\"foo\""),
  (b%"Width", b%"width", b%" width=\"foo\""),
  (b%"AriaAtomic", b%"aria-atomic", b%" aria-atomic=\"foo\""),
  (b%"AriaBusy", b%"aria-busy", b%" aria-busy=\"foo\""),
  (b%"AriaChecked", b%"aria-checked", b%" aria-checked=\"foo\""),
  (b%"AriaControls", b%"aria-controls", b%" aria-controls=\"foo\""),
  (b%"AriaDescribedBy", b%"aria-describedby", b%" aria-describedby=\"foo\""),
  (b%"AriaDisabled", b%"aria-disabled", b%" aria-disabled=\"foo\""),
  (b%"AriaExpanded", b%"aria-expanded", b%" aria-expanded=\"foo\""),
  (b%"AriaFlowTo", b%"aria-flowto", b%" aria-flowto=\"foo\""),
  (b%"AriaHidden", b%"aria-hidden", b%" aria-hidden=\"foo\""),
  (b%"AriaInvalid", b%"aria-invalid", b%" aria-invalid=\"foo\""),
  (b%"AriaLabel", b%"aria-label", b%" aria-label=\"foo\""),
  (b%"AriaLabelledBy", b%"aria-labelledby", b%" aria-labelledby=\"foo\""),
  (b%"AriaLive", b%"aria-live", b%" aria-live=\"foo\""),
  (b%"AriaOwns", b%"aria-owns", b%" aria-owns=\"foo\""),
  (b%"AriaPlaceholder", b%"aria-placeholder", b%" aria-placeholder=\"foo\""),
  (b%"AriaPosInSet", b%"aria-posinset", b%" aria-posinset=\"foo\""),
  (b%"AriaPressed", b%"aria-pressed", b%" aria-pressed=\"foo\""),
  (b%"AriaReadonly", b%"aria-readonly", b%" aria-readonly=\"foo\""),
  (b%"AriaRelevant", b%"aria-relevant", b%" aria-relevant=\"foo\""),
  (b%"AriaRequired", b%"aria-required", b%" aria-required=\"foo\""),
  (b%"AriaSelected", b%"aria-selected", b%" aria-selected=\"foo\""),
  (b%"AriaSetSize", b%"aria-setsize", b%" aria-setsize=\"foo\""),
  (b%"AriaValueMax", b%"aria-valuemax", b%" aria-valuemax=\"foo\""),
  (b%"AriaValueMin", b%"aria-valuemin", b%" aria-valuemin=\"foo\""),
  (b%"AriaValueNow", b%"aria-valuenow", b%" aria-valuenow=\"foo\""),
  (b%"AriaValueText", b%"aria-valuetext", b%" aria-valuetext=\"foo\""),
  (b%"OnAbort", b%"onabort", b%" onabort=\"foo\""),
  (b%"OnBeforeUnload", b%"onbeforeunload", b%" onbeforeunload=\"foo\""),
  (b%"OnBlur", b%"onblur", b%" onblur=\"foo\""),
  (b%"OnCanPlay", b%"oncanplay", b%" oncanplay=\"foo\""),
  (b%"OnCanPlayThrough", b%"oncanplaythrough", b%" oncanplaythrough=\"foo\""),
  (b%"OnChange", b%"onchange", b%" onchange=\"foo\""),
  (b%"OnClick", b%"onclick", b%" onclick=\"foo\""),
  (b%"OnContextMenu", b%"oncontextmenu", b%" oncontextmenu=\"foo\""),
  (b%"OnCopy", b%"oncopy", b%" oncopy=\"foo\""),
  (b%"OnCut", b%"oncut", b%" oncut=\"foo\""),
  (b%"OnDblClick", b%"ondblclick", b%" ondblclick=\"foo\""),
  (b%"OnDrag", b%"ondrag", b%" ondrag=\"foo\""),
  (b%"OnDragEnd", b%"ondragend", b%" ondragend=\"foo\""),
  (b%"OnDragEnter", b%"ondragenter", b%" ondragenter=\"foo\""),
  (b%"OnDragLeave", b%"ondragleave", b%" ondragleave=\"foo\""),
  (b%"OnDragOver", b%"ondragover", b%" ondragover=\"foo\""),
  (b%"OnDragStart", b%"ondragstart", b%" ondragstart=\"foo\""),
  (b%"OnDrop", b%"ondrop", b%" ondrop=\"foo\""),
  (b%"OnDurationChange", b%"ondurationchange", b%" ondurationchange=\"foo\""),
  (b%"OnEnded", b%"onended", b%" onended=\"foo\""),
  (b%"OnError", b%"onerror", b%" onerror=\"foo\""),
  (b%"OnFocus", b%"onfocus", b%" onfocus=\"foo\""),
  (b%"OnHashChange", b%"onhashchange", b%" onhashchange=\"foo\""),
  (b%"OnInput", b%"oninput", b%" oninput=\"foo\""),
  (b%"OnInvalid", b%"oninvalid", b%" oninvalid=\"foo\""),
  (b%"OnKeyDown", b%"onkeydown", b%" onkeydown=\"foo\""),
  (b%"OnKeyPress", b%"onkeypress", b%" onkeypress=\"foo\""),
  (b%"OnKeyUp", b%"onkeyup", b%" onkeyup=\"foo\""),
  (b%"OnLoad", b%"onload", b%" onload=\"foo\""),
  (b%"OnLoadedData", b%"onloadeddata", b%" onloadeddata=\"foo\""),
  (b%"OnLoadedMetadata", b%"onloadedmetadata", b%" onloadedmetadata=\"foo\""),
  (b%"OnMouseDown", b%"onmousedown", b%" onmousedown=\"foo\""),
  (b%"OnMouseEnter", b%"onmouseenter", b%" onmouseenter=\"foo\""),
  (b%"OnMouseLeave", b%"onmouseleave", b%" onmouseleave=\"foo\""),
  (b%"OnMouseMove", b%"onmousemove", b%" onmousemove=\"foo\""),
  (b%"OnMouseOut", b%"onmouseout", b%" onmouseout=\"foo\""),
  (b%"OnMouseOver", b%"onmouseover", b%" onmouseover=\"foo\""),
  (b%"OnMouseUp", b%"onmouseup", b%" onmouseup=\"foo\""),
  (b%"OnPageHide", b%"onpagehide", b%" onpagehide=\"foo\""),
  (b%"OnPageShow", b%"onpageshow", b%" onpageshow=\"foo\""),
  (b%"OnPaste", b%"onpaste", b%" onpaste=\"foo\""),
  (b%"OnPause", b%"onpause", b%" onpause=\"foo\""),
  (b%"OnPlay", b%"onplay", b%" onplay=\"foo\""),
  (b%"OnPlaying", b%"onplaying", b%" onplaying=\"foo\""),
  (b%"OnPopState", b%"onpopstate", b%" onpopstate=\"foo\""),
  (b%"OnProgress", b%"onprogress", b%" onprogress=\"foo\""),
  (b%"OnRateChange", b%"onratechange", b%" onratechange=\"foo\""),
  (b%"OnReset", b%"onreset", b%" onreset=\"foo\""),
  (b%"OnResize", b%"onresize", b%" onresize=\"foo\""),
  (b%"OnScroll", b%"onscroll", b%" onscroll=\"foo\""),
  (b%"OnSeeked", b%"onseeked", b%" onseeked=\"foo\""),
  (b%"OnSeeking", b%"onseeking", b%" onseeking=\"foo\""),
  (b%"OnSelect", b%"onselect", b%" onselect=\"foo\""),
  (b%"OnStalled", b%"onstalled", b%" onstalled=\"foo\""),
  (b%"OnSubmit", b%"onsubmit", b%" onsubmit=\"foo\""),
  (b%"OnSuspend", b%"onsuspend", b%" onsuspend=\"foo\""),
  (b%"OnTimeUpdate", b%"ontimeupdate", b%" ontimeupdate=\"foo\""),
  (b%"OnToggle", b%"ontoggle", b%" ontoggle=\"foo\""),
  (b%"OnUnload", b%"onunload", b%" onunload=\"foo\""),
  (b%"OnVolumeChange", b%"onvolumechange", b%" onvolumechange=\"foo\""),
  (b%"OnWaiting", b%"onwaiting", b%" onwaiting=\"foo\""),
  (b%"OnPointerDown", b%"onpointerdown", b%" onpointerdown=\"foo\""),
  (b%"OnPointerUp", b%"onpointerup", b%" onpointerup=\"foo\""),
  (b%"OnPointerMove", b%"onpointermove", b%" onpointermove=\"foo\""),
  (b%"OnPointerEnter", b%"onpointerenter", b%" onpointerenter=\"foo\""),
  (b%"OnPointerLeave", b%"onpointerleave", b%" onpointerleave=\"foo\""),
  (b%"OnPointerOver", b%"onpointerover", b%" onpointerover=\"foo\""),
  (b%"OnPointerOut", b%"onpointerout", b%" onpointerout=\"foo\""),
  (b%"OnPointerCancel", b%"onpointercancel", b%" onpointercancel=\"foo\""),
  (b%"OnTouchStart", b%"ontouchstart", b%" ontouchstart=\"foo\""),
  (b%"OnTouchMove", b%"ontouchmove", b%" ontouchmove=\"foo\""),
  (b%"OnTouchEnd", b%"ontouchend", b%" ontouchend=\"foo\""),
  (b%"OnTouchCancel", b%"ontouchcancel", b%" ontouchcancel=\"foo\""),
  (b%"OnAnimationStart", b%"onanimationstart", b%" onanimationstart=\"foo\""),
  (b%"OnAnimationEnd", b%"onanimationend", b%" onanimationend=\"foo\""),
  (b%"OnAnimationIteration", b%"onanimationiteration", b%" onanimationiteration=\"foo\""),
  (b%"OnTransitionEnd", b%"ontransitionend", b%" ontransitionend=\"foo\""),
  (b%"OnBeforeInput", b%"onbeforeinput", b%" onbeforeinput=\"foo\""),
  (b%"OnSlotChange", b%"onslotchange", b%" onslotchange=\"foo\""),
  (b%"OnFormData", b%"onformdata", b%" onformdata=\"foo\""),
  (b%"AccessKey", b%"accesskey", b%" accesskey=\"foo\""),
  (b%"AutoCapitalize", b%"autocapitalize", b%" autocapitalize=\"foo\""),
  (b%"AutoCorrect", b%"autocorrect", b%" autocorrect=\"foo\""),
  (b%"EnterKeyHint", b%"enterkeyhint", b%" enterkeyhint=\"foo\""),
  (b%"ExportParts", b%"exportparts", b%" exportparts=\"foo\""),
  (b%"InputMode", b%"inputmode", b%" inputmode=\"foo\""),
  (b%"Is", b%"is", b%" is=\"foo\""),
  (b%"ItemId", b%"itemid", b%" itemid=\"foo\""),
  (b%"ItemProp", b%"itemprop", b%" itemprop=\"foo\""),
  (b%"ItemRef", b%"itemref", b%" itemref=\"foo\""),
  (b%"ItemType", b%"itemtype", b%" itemtype=\"foo\""),
  (b%"Nonce", b%"nonce", b%" nonce=\"foo\""),
  (b%"Part", b%"part", b%" part=\"foo\""),
  (b%"WritingSuggestions", b%"writingsuggestions", b%" writingsuggestions=\"foo\"")]

example : htmlFoo.all (passes .attrib fun f => attrFn htmlAttributes f foo) = true := by decide +kernel

/-- html/attributes_test.go — `F()` (27 tests). -/
def htmlBool : List (Bytes × Bytes × Bytes) := [
  (b%"Async", b%"async", b%" async"),
  (b%"AutoFocus", b%"autofocus", b%" autofocus"),
  (b%"AutoPlay", b%"autoplay", b%" autoplay"),
  (b%"Checked", b%"checked", b%" checked"),
  (b%"Controls", b%"controls", b%" controls"),
  (b%"Defer", b%"defer", b%" defer"),
  (b%"Disabled", b%"disabled", b%" disabled"),
  (b%"Loop", b%"loop", b%" loop"),
  (b%"Multiple", b%"multiple", b%" multiple"),
  (b%"Muted", b%"muted", b%" muted"),
  (b%"PlaysInline", b%"playsinline", b%" playsinline"),
  (b%"ReadOnly", b%"readonly", b%" readonly"),
  (b%"Required", b%"required", b%" required"),
  (b%"Selected", b%"selected", b%" selected"),
  (b%"NoValidate", b%"novalidate", b%" novalidate"),
  (b%"FormNoValidate", b%"formnovalidate", b%" formnovalidate"),
  (b%"Hidden", b%"hidden", b%" hidden"),
  (b%"AllowFullScreen", b%"allowfullscreen", b%" allowfullscreen"),
  (b%"Default", b%"default", b%" default"),
  (b%"Inert", b%"inert", b%" inert"),
  (b%"IsMap", b%"ismap", b%" ismap"),
  (b%"ItemScope", b%"itemscope", b%" itemscope"),
  (b%"NoModule", b%"nomodule", b%" nomodule"),
  (b%"Open", b%"open", b%" open"),
  (b%"Reversed", b%"reversed", b%" reversed"),
  (b%"Spellcheck", b%"spellcheck", b%" spellcheck"),
  (b%"Translate", b%"translate", b%" translate")]

example : htmlBool.all (passes .attrib fun f => attrFn htmlAttributes f []) = true := by decide +kernel

/-- html/elements_test.go — `F(Id(1), Text("foo"))` (114 tests). -/
def htmlElems : List (Bytes × Bytes × Bytes) := [
  (b%"A", b%"a", b%"<a id=\"1\">foo</a>"),
  (b%"Abbr", b%"abbr", b%"<abbr id=\"1\">foo</abbr>"),
  (b%"B", b%"b", b%"<b id=\"1\">foo</b>"),
  (b%"Caption", b%"caption", b%"<caption id=\"1\">foo</caption>"),
  (b%"Dd", b%"dd", b%"<dd id=\"1\">foo</dd>"),
  (b%"Del", b%"del", b%"<del id=\"1\">foo</del>"),
  (b%"Dfn", b%"dfn", b%"<dfn id=\"1\">foo</dfn>"),
  (b%"Dt", b%"dt", b%"<dt id=\"1\">foo</dt>"),
  (b%"Em", b%"em", b%"<em id=\"1\">foo</em>"),
  (b%"FigCaption", b%"figcaption", b%"<figcaption id=\"1\">foo</figcaption>"),
  (b%"H1", b%"h1", b%"<h1 id=\"1\">foo</h1>"),
  (b%"H2", b%"h2", b%"<h2 id=\"1\">foo</h2>"),
  (b%"H3", b%"h3", b%"<h3 id=\"1\">foo</h3>"),
  (b%"H4", b%"h4", b%"<h4 id=\"1\">foo</h4>"),
  (b%"H5", b%"h5", b%"<h5 id=\"1\">foo</h5>"),
  (b%"H6", b%"h6", b%"<h6 id=\"1\">foo</h6>"),
  (b%"I", b%"i", b%"<i id=\"1\">foo</i>"),
  (b%"Ins", b%"ins", b%"<ins id=\"1\">foo</ins>"),
  (b%"Kbd", b%"kbd", b%"<kbd id=\"1\">foo</kbd>"),
  (b%"Address", b%"address", b%"<address id=\"1\">foo</address>"),
  (b%"Area", b%"area", b%"<area id=\"1\">"),
  (b%"Article", b%"article", b%"<article id=\"1\">foo</article>"),
  (b%"Aside", b%"aside", b%"<aside id=\"1\">foo</aside>"),
  (b%"Audio", b%"audio", b%"<audio id=\"1\">foo</audio>"),
  (b%"Base", b%"base", b%"<base id=\"1\">"),
  (b%"BlockQuote", b%"blockquote", b%"<blockquote id=\"1\">foo</blockquote>"),
  (b%"Body", b%"body", b%"<body id=\"1\">foo</body>"),
  (b%"Br", b%"br", b%"<br id=\"1\">"),
  (b%"Button", b%"button", b%"<button id=\"1\">foo</button>"),
  (b%"Canvas", b%"canvas", b%"<canvas id=\"1\">foo</canvas>"),
  (b%"Cite", b%"cite", b%"<cite id=\"1\">foo</cite>"),
  (b%"Code", b%"code", b%"<code id=\"1\">foo</code>"),
  (b%"Col", b%"col", b%"<col id=\"1\">"),
  (b%"ColGroup", b%"colgroup", b%"<colgroup id=\"1\">foo</colgroup>"),
  (b%"DataElement", b%"data", b%"<data id=\"1\">foo</data>"),
  (b%"DataList", b%"datalist", b%"<datalist id=\"1\">foo</datalist>"),
  (b%"Details", b%"details", b%"<details id=\"1\">foo</details>"),
  (b%"Dialog", b%"dialog", b%"<dialog id=\"1\">foo</dialog>"),
  (b%"Div", b%"div", b%"<div id=\"1\">foo</div>"),
  (b%"Dl", b%"dl", b%"<dl id=\"1\">foo</dl>"),
  (b%"Embed", b%"embed", b%"<embed id=\"1\">"),
  (b%"Form", b%"form", b%"<form id=\"1\">foo</form>"),
  (b%"FieldSet", b%"fieldset", b%"<fieldset id=\"1\">foo</fieldset>"),
  (b%"Figure", b%"figure", b%"<figure id=\"1\">foo</figure>"),
  (b%"Footer", b%"footer", b%"<footer id=\"1\">foo</footer>"),
  (b%"Head", b%"head", b%"<head id=\"1\">foo</head>"),
  (b%"Header", b%"header", b%"<header id=\"1\">foo</header>"),
  (b%"HGroup", b%"hgroup", b%"<hgroup id=\"1\">foo</hgroup>"),
  (b%"Hr", b%"hr", b%"<hr id=\"1\">"),
  (b%"Html", b%"html", b%"<html id=\"1\">foo</html>"),
  (b%"IFrame", b%"iframe", b%"<iframe id=\"1\">foo</iframe>"),
  (b%"Img", b%"img", b%"<img id=\"1\">"),
  (b%"Input", b%"input", b%"<input id=\"1\">"),
  (b%"Label", b%"label", b%"<label id=\"1\">foo</label>"),
  (b%"Legend", b%"legend", b%"<legend id=\"1\">foo</legend>"),
  (b%"Li", b%"li", b%"<li id=\"1\">foo</li>"),
  (b%"Link", b%"link", b%"<link id=\"1\">"),
  (b%"Main", b%"main", b%"<main id=\"1\">foo</main>"),
  (b%"Mark", b%"mark", b%"<mark id=\"1\">foo</mark>"),
  (b%"Menu", b%"menu", b%"<menu id=\"1\">foo</menu>"),
  (b%"Meta", b%"meta", b%"<meta id=\"1\">"),
  (b%"Meter", b%"meter", b%"<meter id=\"1\">foo</meter>"),
  (b%"Nav", b%"nav", b%"<nav id=\"1\">foo</nav>"),
  (b%"NoScript", b%"noscript", b%"<noscript id=\"1\">foo</noscript>"),
  (b%"Object", b%"object", b%"<object id=\"1\">foo</object>"),
  (b%"Ol", b%"ol", b%"<ol id=\"1\">foo</ol>"),
  (b%"OptGroup", b%"optgroup", b%"<optgroup id=\"1\">foo</optgroup>"),
  (b%"Option", b%"option", b%"<option id=\"1\">foo</option>"),
  (b%"P", b%"p", b%"<p id=\"1\">foo</p>"),
  (b%"Para", b%"p", b%"<p id=\"1\">foo</p>"),
  (b%"Param", b%"param", b%"<param id=\"1\">"),
  (b%"Picture", b%"picture", b%"<picture id=\"1\">foo</picture>"),
  (b%"Pre", b%"pre", b%"<pre id=\"1\">foo</pre>"),
  (b%"Progress", b%"progress", b%"<progress id=\"1\">foo</progress>"),
  (b%"Script", b%"script", b%"<script id=\"1\">foo</script>"),
  (b%"Section", b%"section", b%"<section id=\"1\">foo</section>"),
  (b%"Select", b%"select", b%"<select id=\"1\">foo</select>"),
  (b%"Slot", b%"slot", b%"<slot id=\"1\">foo</slot>"),
  (b%"Source", b%"source", b%"<source id=\"1\">"),
  (b%"Span", b%"span", b%"<span id=\"1\">foo</span>"),
  (b%"StyleElement", b%"style", b%"<style id=\"1\">foo</style>"),
  (b%"Summary", b%"summary", b%"<summary id=\"1\">foo</summary>"),
  (b%"Table", b%"table", b%"<table id=\"1\">foo</table>"),
  (b%"TBody", b%"tbody", b%"<tbody id=\"1\">foo</tbody>"),
  (b%"Td", b%"td", b%"<td id=\"1\">foo</td>"),
  (b%"Template", b%"template", b%"<template id=\"1\">foo</template>"),
  (b%"Textarea", b%"textarea", b%"<textarea id=\"1\">foo</textarea>"),
  (b%"TFoot", b%"tfoot", b%"<tfoot id=\"1\">foo</tfoot>"),
  (b%"Th", b%"th", b%"<th id=\"1\">foo</th>"),
  (b%"THead", b%"thead", b%"<thead id=\"1\">foo</thead>"),
  (b%"Tr", b%"tr", b%"<tr id=\"1\">foo</tr>"),
  (b%"Ul", b%"ul", b%"<ul id=\"1\">foo</ul>"),
  (b%"Wbr", b%"wbr", b%"<wbr id=\"1\">"),
  (b%"Q", b%"q", b%"<q id=\"1\">foo</q>"),
  (b%"S", b%"s", b%"<s id=\"1\">foo</s>"),
  (b%"Samp", b%"samp", b%"<samp id=\"1\">foo</samp>"),
  (b%"Small", b%"small", b%"<small id=\"1\">foo</small>"),
  (b%"Strong", b%"strong", b%"<strong id=\"1\">foo</strong>"),
  (b%"Sub", b%"sub", b%"<sub id=\"1\">foo</sub>"),
  (b%"Sup", b%"sup", b%"<sup id=\"1\">foo</sup>"),
  (b%"Time", b%"time", b%"<time id=\"1\">foo</time>"),
  (b%"TitleElement", b%"title", b%"<title id=\"1\">foo</title>"),
  (b%"U", b%"u", b%"<u id=\"1\">foo</u>"),
  (b%"Var", b%"var", b%"<var id=\"1\">foo</var>"),
  (b%"Video", b%"video", b%"<video id=\"1\">foo</video>"),
  (b%"Bdi", b%"bdi", b%"<bdi id=\"1\">foo</bdi>"),
  (b%"Bdo", b%"bdo", b%"<bdo id=\"1\">foo</bdo>"),
  (b%"Map", b%"map", b%"<map id=\"1\">foo</map>"),
  (b%"Output", b%"output", b%"<output id=\"1\">foo</output>"),
  (b%"Rp", b%"rp", b%"<rp id=\"1\">foo</rp>"),
  (b%"Rt", b%"rt", b%"<rt id=\"1\">foo</rt>"),
  (b%"Ruby", b%"ruby", b%"<ruby id=\"1\">foo</ruby>"),
  (b%"Search", b%"search", b%"<search id=\"1\">foo</search>"),
  (b%"Track", b%"track", b%"<track id=\"1\">foo</track>")]

example : htmlElems.all (passes .element fun f =>
    elemFn htmlElements f [attrFn htmlAttributes b%"Id" [int 1], text foo]) = true := by decide +kernel

/-- svg/attributes_test.go — `F("foo")` (142 tests). -/
def svgFoo : List (Bytes × Bytes × Bytes) := [
  (b%"Accumulate", b%"accumulate", b%" accumulate=\"foo\""),
  (b%"Additive", b%"additive", b%" additive=\"foo\""),
  (b%"AlignmentBaseline", b%"alignment-baseline", b%" alignment-baseline=\"foo\""),
  (b%"AttributeName", b%"attributeName", b%" attributeName=\"foo\""),
  (b%"AttributeType", b%"attributeType", b%" attributeType=\"foo\""),
  (b%"BaselineShift", b%"baseline-shift", b%" baseline-shift=\"foo\""),
  (b%"Begin", b%"begin", b%" begin=\"foo\""),
  (b%"By", b%"by", b%" by=\"foo\""),
  (b%"CalcMode", b%"calcMode", b%" calcMode=\"foo\""),
  (b%"Class", b%"class", b%" class=\"foo\""),
  (b%"Clip", b%"clip", b%" clip=\"foo\""),
  (b%"ClipPathAttr", b%"clip-path", b%" clip-path=\"foo\""),
  (b%"ClipRule", b%"clip-rule", b%" clip-rule=\"foo\""),
  (b%"Color", b%"color", b%" color=\"foo\""),
  (b%"ColorInterpolation", b%"color-interpolation", b%" color-interpolation=\"foo\""),
  (b%"ColorInterpolationFilters", b%"color-interpolation-filters", b%" color-interpolation-filters=\"foo\""),
  (b%"ColorProfile", b%"color-profile", b%" color-profile=\"foo\""),
  (b%"ColorRendering", b%"color-rendering", b%" color-rendering=\"foo\""),
  (b%"Cursor", b%"cursor", b%" cursor=\"foo\""),
  (b%"Cx", b%"cx", b%" cx=\"foo\""),
  (b%"Cy", b%"cy", b%" cy=\"foo\""),
  (b%"D", b%"d", b%" d=\"foo\""),
  (b%"Direction", b%"direction", b%" direction=\"foo\""),
  (b%"Display", b%"display", b%" display=\"foo\""),
  (b%"DominantBaseline", b%"dominant-baseline", b%" dominant-baseline=\"foo\""),
  (b%"Dur", b%"dur", b%" dur=\"foo\""),
  (b%"Dx", b%"dx", b%" dx=\"foo\""),
  (b%"Dy", b%"dy", b%" dy=\"foo\""),
  (b%"EnableBackground", b%"enable-background", b%" enable-background=\"foo\""),
  (b%"End", b%"end", b%" end=\"foo\""),
  (b%"ExternalResourcesRequired", b%"externalResourcesRequired", b%" externalResourcesRequired=\"foo\""),
  (b%"Fill", b%"fill", b%" fill=\"foo\""),
  (b%"FillOpacity", b%"fill-opacity", b%" fill-opacity=\"foo\""),
  (b%"FillRule", b%"fill-rule", b%" fill-rule=\"foo\""),
  (b%"FilterAttr", b%"filter", b%" filter=\"foo\""),
  (b%"FilterUnits", b%"filterUnits", b%" filterUnits=\"foo\""),
  (b%"FloodColor", b%"flood-color", b%" flood-color=\"foo\""),
  (b%"FloodOpacity", b%"flood-opacity", b%" flood-opacity=\"foo\""),
  (b%"FontFamily", b%"font-family", b%" font-family=\"foo\""),
  (b%"FontSize", b%"font-size", b%" font-size=\"foo\""),
  (b%"FontSizeAdjust", b%"font-size-adjust", b%" font-size-adjust=\"foo\""),
  (b%"FontStretch", b%"font-stretch", b%" font-stretch=\"foo\""),
  (b%"FontStyle", b%"font-style", b%" font-style=\"foo\""),
  (b%"FontVariant", b%"font-variant", b%" font-variant=\"foo\""),
  (b%"FontWeight", b%"font-weight", b%" font-weight=\"foo\""),
  (b%"From", b%"from", b%" from=\"foo\""),
  (b%"Fx", b%"fx", b%" fx=\"foo\""),
  (b%"Fy", b%"fy", b%" fy=\"foo\""),
  (b%"GlyphOrientationHorizontal", b%"glyph-orientation-horizontal", b%" glyph-orientation-horizontal=\"foo\""),
  (b%"GlyphOrientationVertical", b%"glyph-orientation-vertical", b%" glyph-orientation-vertical=\"foo\""),
  (b%"GradientTransform", b%"gradientTransform", b%" gradientTransform=\"foo\""),
  (b%"GradientUnits", b%"gradientUnits", b%" gradientUnits=\"foo\""),
  (b%"Height", b%"height", b%" height=\"foo\""),
  (b%"Href", b%"href", b%" href=\"foo\""),
  (b%"Id", b%"id", b%" id=\"foo\""),
  (b%"ImageRendering", b%"image-rendering", b%" image-rendering=\"foo\""),
  (b%"Kerning", b%"kerning", b%" kerning=\"foo\""),
  (b%"KeyPoints", b%"keyPoints", b%" keyPoints=\"foo\""),
  (b%"KeySplines", b%"keySplines", b%" keySplines=\"foo\""),
  (b%"KeyTimes", b%"keyTimes", b%" keyTimes=\"foo\""),
  (b%"LengthAdjust", b%"lengthAdjust", b%" lengthAdjust=\"foo\""),
  (b%"LetterSpacing", b%"letter-spacing", b%" letter-spacing=\"foo\""),
  (b%"LightingColor", b%"lighting-color", b%" lighting-color=\"foo\""),
  (b%"MarkerEnd", b%"marker-end", b%" marker-end=\"foo\""),
  (b%"MarkerMid", b%"marker-mid", b%" marker-mid=\"foo\""),
  (b%"MarkerStart", b%"marker-start", b%" marker-start=\"foo\""),
  (b%"MarkerHeight", b%"markerHeight", b%" markerHeight=\"foo\""),
  (b%"MarkerUnits", b%"markerUnits", b%" markerUnits=\"foo\""),
  (b%"MarkerWidth", b%"markerWidth", b%" markerWidth=\"foo\""),
  (b%"MaskAttr", b%"mask", b%" mask=\"foo\""),
  (b%"OnBlur", b%"onblur", b%" onblur=\"foo\""),
  (b%"OnClick", b%"onclick", b%" onclick=\"foo\""),
  (b%"OnFocus", b%"onfocus", b%" onfocus=\"foo\""),
  (b%"OnLoad", b%"onload", b%" onload=\"foo\""),
  (b%"OnMouseDown", b%"onmousedown", b%" onmousedown=\"foo\""),
  (b%"OnMouseMove", b%"onmousemove", b%" onmousemove=\"foo\""),
  (b%"OnMouseOut", b%"onmouseout", b%" onmouseout=\"foo\""),
  (b%"OnMouseOver", b%"onmouseover", b%" onmouseover=\"foo\""),
  (b%"OnMouseUp", b%"onmouseup", b%" onmouseup=\"foo\""),
  (b%"OnUnload", b%"onunload", b%" onunload=\"foo\""),
  (b%"Opacity", b%"opacity", b%" opacity=\"foo\""),
  (b%"Orient", b%"orient", b%" orient=\"foo\""),
  (b%"PathAttr", b%"path", b%" path=\"foo\""),
  (b%"PathLength", b%"pathLength", b%" pathLength=\"foo\""),
  (b%"PatternContentUnits", b%"patternContentUnits", b%" patternContentUnits=\"foo\""),
  (b%"PatternTransform", b%"patternTransform", b%" patternTransform=\"foo\""),
  (b%"PatternUnits", b%"patternUnits", b%" patternUnits=\"foo\""),
  (b%"PointerEvents", b%"pointer-events", b%" pointer-events=\"foo\""),
  (b%"Points", b%"points", b%" points=\"foo\""),
  (b%"PreserveAspectRatio", b%"preserveAspectRatio", b%" preserveAspectRatio=\"foo\""),
  (b%"PrimitiveUnits", b%"primitiveUnits", b%" primitiveUnits=\"foo\""),
  (b%"R", b%"r", b%" r=\"foo\""),
  (b%"RefX", b%"refX", b%" refX=\"foo\""),
  (b%"RefY", b%"refY", b%" refY=\"foo\""),
  (b%"RepeatCount", b%"repeatCount", b%" repeatCount=\"foo\""),
  (b%"RepeatDur", b%"repeatDur", b%" repeatDur=\"foo\""),
  (b%"RequiredExtensions", b%"requiredExtensions", b%" requiredExtensions=\"foo\""),
  (b%"RequiredFeatures", b%"requiredFeatures", b%" requiredFeatures=\"foo\""),
  (b%"Rotate", b%"rotate", b%" rotate=\"foo\""),
  (b%"Rx", b%"rx", b%" rx=\"foo\""),
  (b%"Ry", b%"ry", b%" ry=\"foo\""),
  (b%"ShapeRendering", b%"shape-rendering", b%" shape-rendering=\"foo\""),
  (b%"SpreadMethod", b%"spreadMethod", b%" spreadMethod=\"foo\""),
  (b%"StopColor", b%"stop-color", b%" stop-color=\"foo\""),
  (b%"StopOpacity", b%"stop-opacity", b%" stop-opacity=\"foo\""),
  (b%"Stroke", b%"stroke", b%" stroke=\"foo\""),
  (b%"StrokeDashArray", b%"stroke-dasharray", b%" stroke-dasharray=\"foo\""),
  (b%"StrokeDashOffset", b%"stroke-dashoffset", b%" stroke-dashoffset=\"foo\""),
  (b%"StrokeLineCap", b%"stroke-linecap", b%" stroke-linecap=\"foo\""),
  (b%"StrokeLineJoin", b%"stroke-linejoin", b%" stroke-linejoin=\"foo\""),
  (b%"StrokeMiterLimit", b%"stroke-miterlimit", b%" stroke-miterlimit=\"foo\""),
  (b%"StrokeOpacity", b%"stroke-opacity", b%" stroke-opacity=\"foo\""),
  (b%"StrokeWidth", b%"stroke-width", b%" stroke-width=\"foo\""),
  (b%"SystemLanguage", b%"systemLanguage", b%" systemLanguage=\"foo\""),
  (b%"TabIndex", b%"tabindex", b%" tabindex=\"foo\""),
  (b%"TextAnchor", b%"text-anchor", b%" text-anchor=\"foo\""),
  (b%"TextDecoration", b%"text-decoration", b%" text-decoration=\"foo\""),
  (b%"TextRendering", b%"text-rendering", b%" text-rendering=\"foo\""),
  (b%"TextLength", b%"textLength", b%" textLength=\"foo\""),
  (b%"To", b%"to", b%" to=\"foo\""),
  (b%"Type", b%"type", b%" type=\"foo\""),
  (b%"UnicodeBidi", b%"unicode-bidi", b%" unicode-bidi=\"foo\""),
  (b%"Values", b%"values", b%" values=\"foo\""),
  (b%"Visibility", b%"visibility", b%" visibility=\"foo\""),
  (b%"Width", b%"width", b%" width=\"foo\""),
  (b%"WordSpacing", b%"word-spacing", b%" word-spacing=\"foo\""),
  (b%"WritingMode", b%"writing-mode", b%" writing-mode=\"foo\""),
  (b%"X", b%"x", b%" x=\"foo\""),
  (b%"X1", b%"x1", b%" x1=\"foo\""),
  (b%"X2", b%"x2", b%" x2=\"foo\""),
  (b%"XlinkActuate", b%"xlink:actuate", b%" xlink:actuate=\"foo\""),
  (b%"XlinkArcrole", b%"xlink:arcrole", b%" xlink:arcrole=\"foo\""),
  (b%"XlinkHref", b%"xlink:href", b%" xlink:href=\"foo\""),
  (b%"XlinkRole", b%"xlink:role", b%" xlink:role=\"foo\""),
  (b%"XlinkShow", b%"xlink:show", b%" xlink:show=\"foo\""),
  (b%"XlinkTitle", b%"xlink:title", b%" xlink:title=\"foo\""),
  (b%"XmlBase", b%"xml:base", b%" xml:base=\"foo\""),
  (b%"XmlLang", b%"xml:lang", b%" xml:lang=\"foo\""),
  (b%"XmlSpace", b%"xml:space", b%" xml:space=\"foo\""),
  (b%"Y", b%"y", b%" y=\"foo\""),
  (b%"Y1", b%"y1", b%" y1=\"foo\""),
  (b%"Y2", b%"y2", b%" y2=\"foo\"")]

example : svgFoo.all (passes .attrib fun f => attrFn svgAttributes f foo) = true := by decide +kernel

/-- svg/elements_test.go — `F(Text("foo"))` (66 tests). -/
def svgElems : List (Bytes × Bytes × Bytes) := [
  (b%"Svg", b%"svg", b%"<svg>foo</svg>"),
  (b%"AltGlyph", b%"altGlyph", b%"<altGlyph>foo</altGlyph>"),
  (b%"Animate", b%"animate", b%"<animate>foo</animate>"),
  (b%"AnimateMotion", b%"animateMotion", b%"<animateMotion>foo</animateMotion>"),
  (b%"AnimateTransform", b%"animateTransform", b%"<animateTransform>foo</animateTransform>"),
  (b%"Circle", b%"circle", b%"<circle>foo</circle>"),
  (b%"ClipPath", b%"clipPath", b%"<clipPath>foo</clipPath>"),
  (b%"Defs", b%"defs", b%"<defs>foo</defs>"),
  (b%"Desc", b%"desc", b%"<desc>foo</desc>"),
  (b%"Discard", b%"discard", b%"<discard>foo</discard>"),
  (b%"Ellipse", b%"ellipse", b%"<ellipse>foo</ellipse>"),
  (b%"FeBlend", b%"feBlend", b%"<feBlend>foo</feBlend>"),
  (b%"FeColorMatrix", b%"feColorMatrix", b%"<feColorMatrix>foo</feColorMatrix>"),
  (b%"FeComponentTransfer", b%"feComponentTransfer", b%"<feComponentTransfer>foo</feComponentTransfer>"),
  (b%"FeComposite", b%"feComposite", b%"<feComposite>foo</feComposite>"),
  (b%"FeConvolveMatrix", b%"feConvolveMatrix", b%"<feConvolveMatrix>foo</feConvolveMatrix>"),
  (b%"FeDiffuseLighting", b%"feDiffuseLighting", b%"<feDiffuseLighting>foo</feDiffuseLighting>"),
  (b%"FeDisplacementMap", b%"feDisplacementMap", b%"<feDisplacementMap>foo</feDisplacementMap>"),
  (b%"FeDistantLight", b%"feDistantLight", b%"<feDistantLight>foo</feDistantLight>"),
  (b%"FeDropShadow", b%"feDropShadow", b%"<feDropShadow>foo</feDropShadow>"),
  (b%"FeFlood", b%"feFlood", b%"<feFlood>foo</feFlood>"),
  (b%"FeFuncA", b%"feFuncA", b%"<feFuncA>foo</feFuncA>"),
  (b%"FeFuncB", b%"feFuncB", b%"<feFuncB>foo</feFuncB>"),
  (b%"FeFuncG", b%"feFuncG", b%"<feFuncG>foo</feFuncG>"),
  (b%"FeFuncR", b%"feFuncR", b%"<feFuncR>foo</feFuncR>"),
  (b%"FeGaussianBlur", b%"feGaussianBlur", b%"<feGaussianBlur>foo</feGaussianBlur>"),
  (b%"FeImage", b%"feImage", b%"<feImage>foo</feImage>"),
  (b%"FeMerge", b%"feMerge", b%"<feMerge>foo</feMerge>"),
  (b%"FeMergeNode", b%"feMergeNode", b%"<feMergeNode>foo</feMergeNode>"),
  (b%"FeMorphology", b%"feMorphology", b%"<feMorphology>foo</feMorphology>"),
  (b%"FeOffset", b%"feOffset", b%"<feOffset>foo</feOffset>"),
  (b%"FePointLight", b%"fePointLight", b%"<fePointLight>foo</fePointLight>"),
  (b%"FeSpecularLighting", b%"feSpecularLighting", b%"<feSpecularLighting>foo</feSpecularLighting>"),
  (b%"FeSpotLight", b%"feSpotLight", b%"<feSpotLight>foo</feSpotLight>"),
  (b%"FeTile", b%"feTile", b%"<feTile>foo</feTile>"),
  (b%"FeTurbulence", b%"feTurbulence", b%"<feTurbulence>foo</feTurbulence>"),
  (b%"Filter", b%"filter", b%"<filter>foo</filter>"),
  (b%"ForeignObject", b%"foreignObject", b%"<foreignObject>foo</foreignObject>"),
  (b%"G", b%"g", b%"<g>foo</g>"),
  (b%"Glyph", b%"glyph", b%"<glyph>foo</glyph>"),
  (b%"Line", b%"line", b%"<line>foo</line>"),
  (b%"LinearGradient", b%"linearGradient", b%"<linearGradient>foo</linearGradient>"),
  (b%"Marker", b%"marker", b%"<marker>foo</marker>"),
  (b%"Mask", b%"mask", b%"<mask>foo</mask>"),
  (b%"Metadata", b%"metadata", b%"<metadata>foo</metadata>"),
  (b%"Mpath", b%"mpath", b%"<mpath>foo</mpath>"),
  (b%"Path", b%"path", b%"<path>foo</path>"),
  (b%"Pattern", b%"pattern", b%"<pattern>foo</pattern>"),
  (b%"Polygon", b%"polygon", b%"<polygon>foo</polygon>"),
  (b%"Polyline", b%"polyline", b%"<polyline>foo</polyline>"),
  (b%"RadialGradient", b%"radialGradient", b%"<radialGradient>foo</radialGradient>"),
  (b%"Rect", b%"rect", b%"<rect>foo</rect>"),
  (b%"Script", b%"script", b%"<script>foo</script>"),
  (b%"Set", b%"set", b%"<set>foo</set>"),
  (b%"SolidColor", b%"solidcolor", b%"<solidcolor>foo</solidcolor>"),
  (b%"Stop", b%"stop", b%"<stop>foo</stop>"),
  (b%"StyleElement", b%"style", b%"<style>foo</style>"),
  (b%"Symbol", b%"symbol", b%"<symbol>foo</symbol>"),
  (b%"TextElement", b%"text", b%"<text>foo</text>"),
  (b%"TextPath", b%"textPath", b%"<textPath>foo</textPath>"),
  (b%"Title", b%"title", b%"<title>foo</title>"),
  (b%"TRef", b%"tref", b%"<tref>foo</tref>"),
  (b%"TSpan", b%"tspan", b%"<tspan>foo</tspan>"),
  (b%"Use", b%"use", b%"<use>foo</use>"),
  (b%"Switch", b%"switch", b%"<switch>foo</switch>"),
  (b%"View", b%"view", b%"<view>foo</view>")]

example : svgElems.all (passes .element fun f => elemFn svgElements f [text foo]) = true := by decide +kernel

/-- htmx/attributes_test.go — `F("foo")` (37 tests). -/
def htmxFoo : List (Bytes × Bytes × Bytes) := [
  (b%"Get", b%"hx-get", b%" hx-get=\"foo\""),
  (b%"Post", b%"hx-post", b%" hx-post=\"foo\""),
  (b%"Put", b%"hx-put", b%" hx-put=\"foo\""),
  (b%"Delete", b%"hx-delete", b%" hx-delete=\"foo\""),
  (b%"Patch", b%"hx-patch", b%" hx-patch=\"foo\""),
  (b%"Target", b%"hx-target", b%" hx-target=\"foo\""),
  (b%"Swap", b%"hx-swap", b%" hx-swap=\"foo\""),
  (b%"SwapOob", b%"hx-swap-oob", b%" hx-swap-oob=\"foo\""),
  (b%"Include", b%"hx-include", b%" hx-include=\"foo\""),
  (b%"Select", b%"hx-select", b%" hx-select=\"foo\""),
  (b%"Params", b%"hx-params", b%" hx-params=\"foo\""),
  (b%"PushURL", b%"hx-push-url", b%" hx-push-url=\"foo\""),
  (b%"ReplaceURL", b%"hx-replace-url", b%" hx-replace-url=\"foo\""),
  (b%"Confirm", b%"hx-confirm", b%" hx-confirm=\"foo\""),
  (b%"Disable", b%"hx-disable", b%" hx-disable=\"foo\""),
  (b%"DisabledElt", b%"hx-disabled-elt", b%" hx-disabled-elt=\"foo\""),
  (b%"Boost", b%"hx-boost", b%" hx-boost=\"foo\""),
  (b%"Ext", b%"hx-ext", b%" hx-ext=\"foo\""),
  (b%"Encoding", b%"hx-encoding", b%" hx-encoding=\"foo\""),
  (b%"HistoryElt", b%"hx-history-elt", b%" hx-history-elt=\"foo\""),
  (b%"Indicator", b%"hx-indicator", b%" hx-indicator=\"foo\""),
  (b%"Request", b%"hx-request", b%" hx-request=\"foo\""),
  (b%"OnBeforeRequest", b%"hx-on:before-request", b%" hx-on:before-request=\"foo\""),
  (b%"OnSend", b%"hx-on:send", b%" hx-on:send=\"foo\""),
  (b%"OnAfterRequest", b%"hx-on:after-request", b%" hx-on:after-request=\"foo\""),
  (b%"OnBeforeSwap", b%"hx-on:before-swap", b%" hx-on:before-swap=\"foo\""),
  (b%"OnAfterSwap", b%"hx-on:after-swap", b%" hx-on:after-swap=\"foo\""),
  (b%"OnResponseError", b%"hx-on:response-error", b%" hx-on:response-error=\"foo\""),
  (b%"OnSendError", b%"hx-on:send-error", b%" hx-on:send-error=\"foo\""),
  (b%"Vals", b%"hx-vals", b%" hx-vals=\"foo\""),
  (b%"Vars", b%"hx-vars", b%" hx-vars=\"foo\""),
  (b%"Inherit", b%"hx-inherit", b%" hx-inherit=\"foo\""),
  (b%"Disinherit", b%"hx-disinherit", b%" hx-disinherit=\"foo\""),
  (b%"Sync", b%"hx-sync", b%" hx-sync=\"foo\""),
  (b%"Preserve", b%"hx-preserve", b%" hx-preserve=\"foo\""),
  (b%"Prompt", b%"hx-prompt", b%" hx-prompt=\"foo\""),
  (b%"Validate", b%"hx-validate", b%" hx-validate=\"foo\"")]

example : htmxFoo.all (passes .attrib fun f => attrFn htmxAttributes f foo) = true := by decide +kernel

/-- css/properties_test.go — `F("foo")` (133 tests). -/
def cssFoo : List (Bytes × Bytes × Bytes) := [
  (b%"Display", b%"style", b%" style=\"display:foo\""),
  (b%"Position", b%"style", b%" style=\"position:foo\""),
  (b%"Top", b%"style", b%" style=\"top:foo\""),
  (b%"Right", b%"style", b%" style=\"right:foo\""),
  (b%"Bottom", b%"style", b%" style=\"bottom:foo\""),
  (b%"Left", b%"style", b%" style=\"left:foo\""),
  (b%"ZIndex", b%"style", b%" style=\"z-index:foo\""),
  (b%"Float", b%"style", b%" style=\"float:foo\""),
  (b%"Clear", b%"style", b%" style=\"clear:foo\""),
  (b%"Flex", b%"style", b%" style=\"flex:foo\""),
  (b%"FlexGrow", b%"style", b%" style=\"flex-grow:foo\""),
  (b%"FlexShrink", b%"style", b%" style=\"flex-shrink:foo\""),
  (b%"FlexBasis", b%"style", b%" style=\"flex-basis:foo\""),
  (b%"JustifyContent", b%"style", b%" style=\"justify-content:foo\""),
  (b%"AlignItems", b%"style", b%" style=\"align-items:foo\""),
  (b%"AlignContent", b%"style", b%" style=\"align-content:foo\""),
  (b%"AlignSelf", b%"style", b%" style=\"align-self:foo\""),
  (b%"Gap", b%"style", b%" style=\"gap:foo\""),
  (b%"RowGap", b%"style", b%" style=\"row-gap:foo\""),
  (b%"ColumnGap", b%"style", b%" style=\"column-gap:foo\""),
  (b%"Width", b%"style", b%" style=\"width:foo\""),
  (b%"Height", b%"style", b%" style=\"height:foo\""),
  (b%"MinWidth", b%"style", b%" style=\"min-width:foo\""),
  (b%"MaxWidth", b%"style", b%" style=\"max-width:foo\""),
  (b%"MinHeight", b%"style", b%" style=\"min-height:foo\""),
  (b%"MaxHeight", b%"style", b%" style=\"max-height:foo\""),
  (b%"Margin", b%"style", b%" style=\"margin:foo\""),
  (b%"MarginTop", b%"style", b%" style=\"margin-top:foo\""),
  (b%"MarginRight", b%"style", b%" style=\"margin-right:foo\""),
  (b%"MarginBottom", b%"style", b%" style=\"margin-bottom:foo\""),
  (b%"MarginLeft", b%"style", b%" style=\"margin-left:foo\""),
  (b%"Padding", b%"style", b%" style=\"padding:foo\""),
  (b%"PaddingTop", b%"style", b%" style=\"padding-top:foo\""),
  (b%"PaddingRight", b%"style", b%" style=\"padding-right:foo\""),
  (b%"PaddingBottom", b%"style", b%" style=\"padding-bottom:foo\""),
  (b%"PaddingLeft", b%"style", b%" style=\"padding-left:foo\""),
  (b%"Border", b%"style", b%" style=\"border:foo\""),
  (b%"BorderWidth", b%"style", b%" style=\"border-width:foo\""),
  (b%"BorderColor", b%"style", b%" style=\"border-color:foo\""),
  (b%"BorderStyle", b%"style", b%" style=\"border-style:foo\""),
  (b%"BorderRadius", b%"style", b%" style=\"border-radius:foo\""),
  (b%"BorderTop", b%"style", b%" style=\"border-top:foo\""),
  (b%"BorderBottom", b%"style", b%" style=\"border-bottom:foo\""),
  (b%"BorderLeft", b%"style", b%" style=\"border-left:foo\""),
  (b%"BorderRight", b%"style", b%" style=\"border-right:foo\""),
  (b%"Background", b%"style", b%" style=\"background:foo\""),
  (b%"BackgroundColor", b%"style", b%" style=\"background-color:foo\""),
  (b%"BackgroundImage", b%"style", b%" style=\"background-image:foo\""),
  (b%"BackgroundSize", b%"style", b%" style=\"background-size:foo\""),
  (b%"BackgroundPosition", b%"style", b%" style=\"background-position:foo\""),
  (b%"BackgroundRepeat", b%"style", b%" style=\"background-repeat:foo\""),
  (b%"Color", b%"style", b%" style=\"color:foo\""),
  (b%"FontSize", b%"style", b%" style=\"font-size:foo\""),
  (b%"FontWeight", b%"style", b%" style=\"font-weight:foo\""),
  (b%"FontFamily", b%"style", b%" style=\"font-family:foo\""),
  (b%"LineHeight", b%"style", b%" style=\"line-height:foo\""),
  (b%"LetterSpacing", b%"style", b%" style=\"letter-spacing:foo\""),
  (b%"TextAlign", b%"style", b%" style=\"text-align:foo\""),
  (b%"TextTransform", b%"style", b%" style=\"text-transform:foo\""),
  (b%"TextDecoration", b%"style", b%" style=\"text-decoration:foo\""),
  (b%"WhiteSpace", b%"style", b%" style=\"white-space:foo\""),
  (b%"WordBreak", b%"style", b%" style=\"word-break:foo\""),
  (b%"Opacity", b%"style", b%" style=\"opacity:foo\""),
  (b%"BoxShadow", b%"style", b%" style=\"box-shadow:foo\""),
  (b%"Visibility", b%"style", b%" style=\"visibility:foo\""),
  (b%"Overflow", b%"style", b%" style=\"overflow:foo\""),
  (b%"OverflowX", b%"style", b%" style=\"overflow-x:foo\""),
  (b%"OverflowY", b%"style", b%" style=\"overflow-y:foo\""),
  (b%"Cursor", b%"style", b%" style=\"cursor:foo\""),
  (b%"Transition", b%"style", b%" style=\"transition:foo\""),
  (b%"TransitionDuration", b%"style", b%" style=\"transition-duration:foo\""),
  (b%"TransitionTimingFunction", b%"style", b%" style=\"transition-timing-function:foo\""),
  (b%"Transform", b%"style", b%" style=\"transform:foo\""),
  (b%"Animation", b%"style", b%" style=\"animation:foo\""),
  (b%"UserSelect", b%"style", b%" style=\"user-select:foo\""),
  (b%"PointerEvents", b%"style", b%" style=\"pointer-events:foo\""),
  (b%"Isolation", b%"style", b%" style=\"isolation:foo\""),
  (b%"ObjectFit", b%"style", b%" style=\"object-fit:foo\""),
  (b%"ObjectPosition", b%"style", b%" style=\"object-position:foo\""),
  (b%"BoxSizing", b%"style", b%" style=\"box-sizing:foo\""),
  (b%"AspectRatio", b%"style", b%" style=\"aspect-ratio:foo\""),
  (b%"Contain", b%"style", b%" style=\"contain:foo\""),
  (b%"ContentVisibility", b%"style", b%" style=\"content-visibility:foo\""),
  (b%"Resize", b%"style", b%" style=\"resize:foo\""),
  (b%"GridTemplateColumns", b%"style", b%" style=\"grid-template-columns:foo\""),
  (b%"GridTemplateRows", b%"style", b%" style=\"grid-template-rows:foo\""),
  (b%"GridColumn", b%"style", b%" style=\"grid-column:foo\""),
  (b%"GridRow", b%"style", b%" style=\"grid-row:foo\""),
  (b%"GridArea", b%"style", b%" style=\"grid-area:foo\""),
  (b%"GridAutoFlow", b%"style", b%" style=\"grid-auto-flow:foo\""),
  (b%"PlaceItems", b%"style", b%" style=\"place-items:foo\""),
  (b%"PlaceContent", b%"style", b%" style=\"place-content:foo\""),
  (b%"PlaceSelf", b%"style", b%" style=\"place-self:foo\""),
  (b%"FontStyle", b%"style", b%" style=\"font-style:foo\""),
  (b%"FontVariant", b%"style", b%" style=\"font-variant:foo\""),
  (b%"FontStretch", b%"style", b%" style=\"font-stretch:foo\""),
  (b%"Direction", b%"style", b%" style=\"direction:foo\""),
  (b%"TabSize", b%"style", b%" style=\"tab-size:foo\""),
  (b%"ListStyle", b%"style", b%" style=\"list-style:foo\""),
  (b%"ListStyleType", b%"style", b%" style=\"list-style-type:foo\""),
  (b%"ListStylePosition", b%"style", b%" style=\"list-style-position:foo\""),
  (b%"ListStyleImage", b%"style", b%" style=\"list-style-image:foo\""),
  (b%"BorderCollapse", b%"style", b%" style=\"border-collapse:foo\""),
  (b%"BorderSpacing", b%"style", b%" style=\"border-spacing:foo\""),
  (b%"TableLayout", b%"style", b%" style=\"table-layout:foo\""),
  (b%"EmptyCells", b%"style", b%" style=\"empty-cells:foo\""),
  (b%"Filter", b%"style", b%" style=\"filter:foo\""),
  (b%"BackdropFilter", b%"style", b%" style=\"backdrop-filter:foo\""),
  (b%"MixBlendMode", b%"style", b%" style=\"mix-blend-mode:foo\""),
  (b%"BoxDecorationBreak", b%"style", b%" style=\"box-decoration-break:foo\""),
  (b%"ScrollBehavior", b%"style", b%" style=\"scroll-behavior:foo\""),
  (b%"ScrollSnapType", b%"style", b%" style=\"scroll-snap-type:foo\""),
  (b%"ScrollSnapAlign", b%"style", b%" style=\"scroll-snap-align:foo\""),
  (b%"ScrollMargin", b%"style", b%" style=\"scroll-margin:foo\""),
  (b%"ScrollPadding", b%"style", b%" style=\"scroll-padding:foo\""),
  (b%"AnimationName", b%"style", b%" style=\"animation-name:foo\""),
  (b%"AnimationDuration", b%"style", b%" style=\"animation-duration:foo\""),
  (b%"AnimationTimingFunction", b%"style", b%" style=\"animation-timing-function:foo\""),
  (b%"AnimationDelay", b%"style", b%" style=\"animation-delay:foo\""),
  (b%"AnimationIterationCount", b%"style", b%" style=\"animation-iteration-count:foo\""),
  (b%"AnimationDirection", b%"style", b%" style=\"animation-direction:foo\""),
  (b%"AnimationFillMode", b%"style", b%" style=\"animation-fill-mode:foo\""),
  (b%"AnimationPlayState", b%"style", b%" style=\"animation-play-state:foo\""),
  (b%"TransitionProperty", b%"style", b%" style=\"transition-property:foo\""),
  (b%"TransitionDelay", b%"style", b%" style=\"transition-delay:foo\""),
  (b%"TouchAction", b%"style", b%" style=\"touch-action:foo\""),
  (b%"WillChange", b%"style", b%" style=\"will-change:foo\""),
  (b%"CaretColor", b%"style", b%" style=\"caret-color:foo\""),
  (b%"ScrollSnapStop", b%"style", b%" style=\"scroll-snap-stop:foo\""),
  (b%"Speak", b%"style", b%" style=\"speak:foo\""),
  (b%"PageBreakBefore", b%"style", b%" style=\"page-break-before:foo\""),
  (b%"PageBreakAfter", b%"style", b%" style=\"page-break-after:foo\""),
  (b%"PageBreakInside", b%"style", b%" style=\"page-break-inside:foo\"")]

/-- A property function, by its Go name. -/
def cssFn (name : Bytes) (as : List Arg) : Arg := fun h =>
  match cssProperties.lookup name with
  | some p => let (vs, h) := args as h; let (n, h) := styleAttribute p vs h; (.node n, h)
  | none => (.other 0, h)

example : cssFoo.all (passes .attrib fun f => cssFn f foo) = true := by decide +kernel

/-- css/units_test.go — `Width(F(10))` (15 tests). -/
def cssUnitTests : List (Bytes × Bytes × Bytes) := [
  (b%"Px", b%"style", b%" style=\"width:10px\""),
  (b%"Pt", b%"style", b%" style=\"width:10pt\""),
  (b%"Pc", b%"style", b%" style=\"width:10pc\""),
  (b%"In", b%"style", b%" style=\"width:10in\""),
  (b%"Cm", b%"style", b%" style=\"width:10cm\""),
  (b%"Mm", b%"style", b%" style=\"width:10mm\""),
  (b%"Em", b%"style", b%" style=\"width:10em\""),
  (b%"Rem", b%"style", b%" style=\"width:10rem\""),
  (b%"Percent", b%"style", b%" style=\"width:10%\""),
  (b%"Vw", b%"style", b%" style=\"width:10vw\""),
  (b%"Vh", b%"style", b%" style=\"width:10vh\""),
  (b%"VMin", b%"style", b%" style=\"width:10vmin\""),
  (b%"VMax", b%"style", b%" style=\"width:10vmax\""),
  (b%"Ch", b%"style", b%" style=\"width:10ch\""),
  (b%"Ex", b%"style", b%" style=\"width:10ex\"")]

/-- A unit function, by its Go name: its arguments are in a new slice. -/
def unit (name : Bytes) (v : Any) : Arg := fun h =>
  match cssUnits.lookup name with
  | some u => (.value (unitFn (fun _ n => n) h.dl u ⟨1, 0, 1, 1⟩ ⟨fun _ => [v], 2⟩).1, h)
  | none => (.other 0, h)

example : cssUnitTests.all (passes .attrib fun f => cssFn b%"Width" [unit f (.int .int 10)]) = true := by decide +kernel

end Aitch.Conform
