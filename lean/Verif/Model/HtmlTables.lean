import Verif.Model.Library
/-
Generated from the source text by matching each function against its one-line body; one row per function.
Packages html/elements.go and html/attributes.go (all functions but `Aria` and `Data`, see Library.lean) and the maps of html/generator.go.
-/
namespace Aitch

/-- html/elements.go — every element function: its name, its tag, whether it calls `NewVoidElement`. -/
def htmlElements : List ElemFn := [
  ⟨b%"A", b%"a", false⟩,  -- html/elements.go:10
  ⟨b%"Abbr", b%"abbr", false⟩,  -- html/elements.go:17
  ⟨b%"Address", b%"address", false⟩,  -- html/elements.go:24
  ⟨b%"Area", b%"area", true⟩,  -- html/elements.go:33
  ⟨b%"Article", b%"article", false⟩,  -- html/elements.go:40
  ⟨b%"Aside", b%"aside", false⟩,  -- html/elements.go:47
  ⟨b%"Audio", b%"audio", false⟩,  -- html/elements.go:54
  ⟨b%"B", b%"b", false⟩,  -- html/elements.go:61
  ⟨b%"Base", b%"base", true⟩,  -- html/elements.go:70
  ⟨b%"BlockQuote", b%"blockquote", false⟩,  -- html/elements.go:77
  ⟨b%"Body", b%"body", false⟩,  -- html/elements.go:84
  ⟨b%"Br", b%"br", true⟩,  -- html/elements.go:93
  ⟨b%"Button", b%"button", false⟩,  -- html/elements.go:100
  ⟨b%"Canvas", b%"canvas", false⟩,  -- html/elements.go:107
  ⟨b%"Caption", b%"caption", false⟩,  -- html/elements.go:114
  ⟨b%"Cite", b%"cite", false⟩,  -- html/elements.go:121
  ⟨b%"Code", b%"code", false⟩,  -- html/elements.go:128
  ⟨b%"Col", b%"col", true⟩,  -- html/elements.go:137
  ⟨b%"ColGroup", b%"colgroup", false⟩,  -- html/elements.go:144
  ⟨b%"DataElement", b%"data", false⟩,  -- html/elements.go:151
  ⟨b%"DataList", b%"datalist", false⟩,  -- html/elements.go:158
  ⟨b%"Dd", b%"dd", false⟩,  -- html/elements.go:165
  ⟨b%"Del", b%"del", false⟩,  -- html/elements.go:172
  ⟨b%"Dfn", b%"dfn", false⟩,  -- html/elements.go:179
  ⟨b%"Dt", b%"dt", false⟩,  -- html/elements.go:186
  ⟨b%"Details", b%"details", false⟩,  -- html/elements.go:193
  ⟨b%"Dialog", b%"dialog", false⟩,  -- html/elements.go:200
  ⟨b%"Div", b%"div", false⟩,  -- html/elements.go:207
  ⟨b%"Dl", b%"dl", false⟩,  -- html/elements.go:214
  ⟨b%"Em", b%"em", false⟩,  -- html/elements.go:221
  ⟨b%"Embed", b%"embed", true⟩,  -- html/elements.go:230
  ⟨b%"Form", b%"form", false⟩,  -- html/elements.go:237
  ⟨b%"FieldSet", b%"fieldset", false⟩,  -- html/elements.go:244
  ⟨b%"FigCaption", b%"figcaption", false⟩,  -- html/elements.go:251
  ⟨b%"Figure", b%"figure", false⟩,  -- html/elements.go:258
  ⟨b%"Footer", b%"footer", false⟩,  -- html/elements.go:265
  ⟨b%"H1", b%"h1", false⟩,  -- html/elements.go:272
  ⟨b%"H2", b%"h2", false⟩,  -- html/elements.go:279
  ⟨b%"H3", b%"h3", false⟩,  -- html/elements.go:286
  ⟨b%"H4", b%"h4", false⟩,  -- html/elements.go:293
  ⟨b%"H5", b%"h5", false⟩,  -- html/elements.go:300
  ⟨b%"H6", b%"h6", false⟩,  -- html/elements.go:307
  ⟨b%"Head", b%"head", false⟩,  -- html/elements.go:314
  ⟨b%"Header", b%"header", false⟩,  -- html/elements.go:321
  ⟨b%"HGroup", b%"hgroup", false⟩,  -- html/elements.go:328
  ⟨b%"Hr", b%"hr", true⟩,  -- html/elements.go:337
  ⟨b%"Html", b%"html", false⟩,  -- html/elements.go:344
  ⟨b%"I", b%"i", false⟩,  -- html/elements.go:351
  ⟨b%"IFrame", b%"iframe", false⟩,  -- html/elements.go:358
  ⟨b%"Img", b%"img", true⟩,  -- html/elements.go:367
  ⟨b%"Input", b%"input", true⟩,  -- html/elements.go:376
  ⟨b%"Ins", b%"ins", false⟩,  -- html/elements.go:383
  ⟨b%"Kbd", b%"kbd", false⟩,  -- html/elements.go:390
  ⟨b%"Label", b%"label", false⟩,  -- html/elements.go:397
  ⟨b%"Legend", b%"legend", false⟩,  -- html/elements.go:404
  ⟨b%"Li", b%"li", false⟩,  -- html/elements.go:411
  ⟨b%"Link", b%"link", true⟩,  -- html/elements.go:420
  ⟨b%"Main", b%"main", false⟩,  -- html/elements.go:427
  ⟨b%"Mark", b%"mark", false⟩,  -- html/elements.go:434
  ⟨b%"Menu", b%"menu", false⟩,  -- html/elements.go:441
  ⟨b%"Meta", b%"meta", true⟩,  -- html/elements.go:450
  ⟨b%"Meter", b%"meter", false⟩,  -- html/elements.go:457
  ⟨b%"Nav", b%"nav", false⟩,  -- html/elements.go:464
  ⟨b%"NoScript", b%"noscript", false⟩,  -- html/elements.go:471
  ⟨b%"Object", b%"object", false⟩,  -- html/elements.go:478
  ⟨b%"Ol", b%"ol", false⟩,  -- html/elements.go:485
  ⟨b%"OptGroup", b%"optgroup", false⟩,  -- html/elements.go:492
  ⟨b%"Option", b%"option", false⟩,  -- html/elements.go:499
  ⟨b%"P", b%"p", false⟩,  -- html/elements.go:506
  ⟨b%"Para", b%"p", false⟩,  -- html/elements.go:513
  ⟨b%"Param", b%"param", true⟩,  -- html/elements.go:522
  ⟨b%"Picture", b%"picture", false⟩,  -- html/elements.go:529
  ⟨b%"Pre", b%"pre", false⟩,  -- html/elements.go:536
  ⟨b%"Progress", b%"progress", false⟩,  -- html/elements.go:543
  ⟨b%"Q", b%"q", false⟩,  -- html/elements.go:550
  ⟨b%"S", b%"s", false⟩,  -- html/elements.go:557
  ⟨b%"Samp", b%"samp", false⟩,  -- html/elements.go:564
  ⟨b%"Script", b%"script", false⟩,  -- html/elements.go:571
  ⟨b%"Section", b%"section", false⟩,  -- html/elements.go:578
  ⟨b%"Select", b%"select", false⟩,  -- html/elements.go:585
  ⟨b%"Slot", b%"slot", false⟩,  -- html/elements.go:592
  ⟨b%"Small", b%"small", false⟩,  -- html/elements.go:599
  ⟨b%"Source", b%"source", true⟩,  -- html/elements.go:608
  ⟨b%"Span", b%"span", false⟩,  -- html/elements.go:615
  ⟨b%"Strong", b%"strong", false⟩,  -- html/elements.go:622
  ⟨b%"StyleElement", b%"style", false⟩,  -- html/elements.go:629
  ⟨b%"Sub", b%"sub", false⟩,  -- html/elements.go:636
  ⟨b%"Sup", b%"sup", false⟩,  -- html/elements.go:643
  ⟨b%"Summary", b%"summary", false⟩,  -- html/elements.go:650
  ⟨b%"Table", b%"table", false⟩,  -- html/elements.go:657
  ⟨b%"TBody", b%"tbody", false⟩,  -- html/elements.go:664
  ⟨b%"Td", b%"td", false⟩,  -- html/elements.go:671
  ⟨b%"Template", b%"template", false⟩,  -- html/elements.go:678
  ⟨b%"Textarea", b%"textarea", false⟩,  -- html/elements.go:685
  ⟨b%"TFoot", b%"tfoot", false⟩,  -- html/elements.go:692
  ⟨b%"Th", b%"th", false⟩,  -- html/elements.go:699
  ⟨b%"THead", b%"thead", false⟩,  -- html/elements.go:706
  ⟨b%"Time", b%"time", false⟩,  -- html/elements.go:713
  ⟨b%"TitleElement", b%"title", false⟩,  -- html/elements.go:720
  ⟨b%"Tr", b%"tr", false⟩,  -- html/elements.go:727
  ⟨b%"Ul", b%"ul", false⟩,  -- html/elements.go:734
  ⟨b%"U", b%"u", false⟩,  -- html/elements.go:741
  ⟨b%"Var", b%"var", false⟩,  -- html/elements.go:748
  ⟨b%"Video", b%"video", false⟩,  -- html/elements.go:755
  ⟨b%"Wbr", b%"wbr", true⟩,  -- html/elements.go:764
  ⟨b%"Bdi", b%"bdi", false⟩,  -- html/elements.go:771
  ⟨b%"Bdo", b%"bdo", false⟩,  -- html/elements.go:778
  ⟨b%"Map", b%"map", false⟩,  -- html/elements.go:785
  ⟨b%"Output", b%"output", false⟩,  -- html/elements.go:792
  ⟨b%"Rp", b%"rp", false⟩,  -- html/elements.go:799
  ⟨b%"Rt", b%"rt", false⟩,  -- html/elements.go:806
  ⟨b%"Ruby", b%"ruby", false⟩,  -- html/elements.go:813
  ⟨b%"Search", b%"search", false⟩,  -- html/elements.go:820
  ⟨b%"Track", b%"track", false⟩  -- html/elements.go:827
]

/-- html/attributes.go — every attribute function: its name, the attribute, the kind of constructor it calls. -/
def htmlAttributes : List AttrFn := [
  ⟨b%"Async", b%"async", .bool⟩,  -- html/attributes.go:10
  ⟨b%"AutoFocus", b%"autofocus", .bool⟩,  -- html/attributes.go:19
  ⟨b%"AutoPlay", b%"autoplay", .bool⟩,  -- html/attributes.go:29
  ⟨b%"Checked", b%"checked", .bool⟩,  -- html/attributes.go:38
  ⟨b%"Controls", b%"controls", .bool⟩,  -- html/attributes.go:48
  ⟨b%"CrossOrigin", b%"crossorigin", .plain⟩,  -- html/attributes.go:55
  ⟨b%"DateTime", b%"datetime", .plain⟩,  -- html/attributes.go:64
  ⟨b%"Defer", b%"defer", .bool⟩,  -- html/attributes.go:73
  ⟨b%"Disabled", b%"disabled", .bool⟩,  -- html/attributes.go:80
  ⟨b%"Download", b%"download", .plain⟩,  -- html/attributes.go:89
  ⟨b%"Draggable", b%"draggable", .plain⟩,  -- html/attributes.go:98
  ⟨b%"Loop", b%"loop", .bool⟩,  -- html/attributes.go:108
  ⟨b%"Multiple", b%"multiple", .bool⟩,  -- html/attributes.go:115
  ⟨b%"Muted", b%"muted", .bool⟩,  -- html/attributes.go:125
  ⟨b%"PlaysInline", b%"playsinline", .bool⟩,  -- html/attributes.go:134
  ⟨b%"ReadOnly", b%"readonly", .bool⟩,  -- html/attributes.go:141
  ⟨b%"Required", b%"required", .bool⟩,  -- html/attributes.go:148
  ⟨b%"Selected", b%"selected", .bool⟩,  -- html/attributes.go:157
  ⟨b%"Accept", b%"accept", .plain⟩,  -- html/attributes.go:166
  ⟨b%"Action", b%"action", .plain⟩,  -- html/attributes.go:175
  ⟨b%"Alt", b%"alt", .plain⟩,  -- html/attributes.go:182
  ⟨b%"As", b%"as", .plain⟩,  -- html/attributes.go:198
  ⟨b%"AutoComplete", b%"autocomplete", .plain⟩,  -- html/attributes.go:205
  ⟨b%"Charset", b%"charset", .plain⟩,  -- html/attributes.go:212
  ⟨b%"CiteAttr", b%"cite", .plain⟩,  -- html/attributes.go:219
  ⟨b%"Class", b%"class", .delim b%" "⟩,  -- html/attributes.go:230
  ⟨b%"Cols", b%"cols", .plain⟩,  -- html/attributes.go:237
  ⟨b%"ColSpan", b%"colspan", .plain⟩,  -- html/attributes.go:244
  ⟨b%"Content", b%"content", .plain⟩,  -- html/attributes.go:251
  ⟨b%"ContentEditable", b%"contenteditable", .plain⟩,  -- html/attributes.go:260
  ⟨b%"Dir", b%"dir", .plain⟩,  -- html/attributes.go:269
  ⟨b%"EncType", b%"enctype", .plain⟩,  -- html/attributes.go:287
  ⟨b%"For", b%"for", .plain⟩,  -- html/attributes.go:296
  ⟨b%"FormAttr", b%"form", .plain⟩,  -- html/attributes.go:303
  ⟨b%"NoValidate", b%"novalidate", .bool⟩,  -- html/attributes.go:310
  ⟨b%"FormNoValidate", b%"formnovalidate", .bool⟩,  -- html/attributes.go:317
  ⟨b%"Height", b%"height", .plain⟩,  -- html/attributes.go:324
  ⟨b%"Hidden", b%"hidden", .bool⟩,  -- html/attributes.go:333
  ⟨b%"Href", b%"href", .plain⟩,  -- html/attributes.go:340
  ⟨b%"Id", b%"id", .plain⟩,  -- html/attributes.go:349
  ⟨b%"Integrity", b%"integrity", .plain⟩,  -- html/attributes.go:356
  ⟨b%"Lang", b%"lang", .plain⟩,  -- html/attributes.go:365
  ⟨b%"List", b%"list", .plain⟩,  -- html/attributes.go:374
  ⟨b%"Loading", b%"loading", .plain⟩,  -- html/attributes.go:381
  ⟨b%"Max", b%"max", .plain⟩,  -- html/attributes.go:388
  ⟨b%"MaxLength", b%"maxlength", .plain⟩,  -- html/attributes.go:395
  ⟨b%"Method", b%"method", .plain⟩,  -- html/attributes.go:404
  ⟨b%"Min", b%"min", .plain⟩,  -- html/attributes.go:411
  ⟨b%"MinLength", b%"minlength", .plain⟩,  -- html/attributes.go:418
  ⟨b%"Name", b%"name", .plain⟩,  -- html/attributes.go:425
  ⟨b%"Pattern", b%"pattern", .plain⟩,  -- html/attributes.go:434
  ⟨b%"Placeholder", b%"placeholder", .plain⟩,  -- html/attributes.go:441
  ⟨b%"PopOver", b%"popover", .plain⟩,  -- html/attributes.go:450
  ⟨b%"PopOverTarget", b%"popovertarget", .plain⟩,  -- html/attributes.go:455
  ⟨b%"PopOverTargetAction", b%"popovertargetaction", .plain⟩,  -- html/attributes.go:460
  ⟨b%"Poster", b%"poster", .plain⟩,  -- html/attributes.go:469
  ⟨b%"Preload", b%"preload", .plain⟩,  -- html/attributes.go:479
  ⟨b%"ReferrerPolicy", b%"referrerpolicy", .plain⟩,  -- html/attributes.go:486
  ⟨b%"Rel", b%"rel", .plain⟩,  -- html/attributes.go:493
  ⟨b%"Role", b%"role", .plain⟩,  -- html/attributes.go:498
  ⟨b%"Rows", b%"rows", .plain⟩,  -- html/attributes.go:507
  ⟨b%"RowSpan", b%"rowspan", .plain⟩,  -- html/attributes.go:514
  ⟨b%"SlotAttr", b%"slot", .plain⟩,  -- html/attributes.go:523
  ⟨b%"Src", b%"src", .plain⟩,  -- html/attributes.go:530
  ⟨b%"SrcSet", b%"srcset", .plain⟩,  -- html/attributes.go:539
  ⟨b%"Step", b%"step", .plain⟩,  -- html/attributes.go:548
  ⟨b%"Style", b%"style", .delim b%"; "⟩,  -- html/attributes.go:559
  ⟨b%"TabIndex", b%"tabindex", .plain⟩,  -- html/attributes.go:568
  ⟨b%"Target", b%"target", .plain⟩,  -- html/attributes.go:575
  ⟨b%"Title", b%"title", .plain⟩,  -- html/attributes.go:584
  ⟨b%"Type", b%"type", .plain⟩,  -- html/attributes.go:591
  ⟨b%"Value", b%"value", .plain⟩,  -- html/attributes.go:598
  ⟨b%"Width", b%"width", .plain⟩,  -- html/attributes.go:605
  ⟨b%"AllowFullScreen", b%"allowfullscreen", .bool⟩,  -- html/attributes.go:612
  ⟨b%"Default", b%"default", .bool⟩,  -- html/attributes.go:619
  ⟨b%"Inert", b%"inert", .bool⟩,  -- html/attributes.go:628
  ⟨b%"IsMap", b%"ismap", .bool⟩,  -- html/attributes.go:637
  ⟨b%"ItemScope", b%"itemscope", .bool⟩,  -- html/attributes.go:642
  ⟨b%"NoModule", b%"nomodule", .bool⟩,  -- html/attributes.go:651
  ⟨b%"Open", b%"open", .bool⟩,  -- html/attributes.go:660
  ⟨b%"Reversed", b%"reversed", .bool⟩,  -- html/attributes.go:669
  ⟨b%"Spellcheck", b%"spellcheck", .bool⟩,  -- html/attributes.go:678
  ⟨b%"Translate", b%"translate", .bool⟩,  -- html/attributes.go:687
  ⟨b%"AriaAtomic", b%"aria-atomic", .plain⟩,  -- html/attributes.go:694
  ⟨b%"AriaBusy", b%"aria-busy", .plain⟩,  -- html/attributes.go:701
  ⟨b%"AriaChecked", b%"aria-checked", .plain⟩,  -- html/attributes.go:708
  ⟨b%"AriaControls", b%"aria-controls", .plain⟩,  -- html/attributes.go:715
  ⟨b%"AriaDescribedBy", b%"aria-describedby", .plain⟩,  -- html/attributes.go:722
  ⟨b%"AriaDisabled", b%"aria-disabled", .plain⟩,  -- html/attributes.go:729
  ⟨b%"AriaExpanded", b%"aria-expanded", .plain⟩,  -- html/attributes.go:736
  ⟨b%"AriaFlowTo", b%"aria-flowto", .plain⟩,  -- html/attributes.go:743
  ⟨b%"AriaHidden", b%"aria-hidden", .plain⟩,  -- html/attributes.go:750
  ⟨b%"AriaInvalid", b%"aria-invalid", .plain⟩,  -- html/attributes.go:757
  ⟨b%"AriaLabel", b%"aria-label", .plain⟩,  -- html/attributes.go:764
  ⟨b%"AriaLabelledBy", b%"aria-labelledby", .plain⟩,  -- html/attributes.go:771
  ⟨b%"AriaLive", b%"aria-live", .plain⟩,  -- html/attributes.go:778
  ⟨b%"AriaOwns", b%"aria-owns", .plain⟩,  -- html/attributes.go:785
  ⟨b%"AriaPlaceholder", b%"aria-placeholder", .plain⟩,  -- html/attributes.go:792
  ⟨b%"AriaPosInSet", b%"aria-posinset", .plain⟩,  -- html/attributes.go:799
  ⟨b%"AriaPressed", b%"aria-pressed", .plain⟩,  -- html/attributes.go:806
  ⟨b%"AriaReadonly", b%"aria-readonly", .plain⟩,  -- html/attributes.go:813
  ⟨b%"AriaRelevant", b%"aria-relevant", .plain⟩,  -- html/attributes.go:820
  ⟨b%"AriaRequired", b%"aria-required", .plain⟩,  -- html/attributes.go:827
  ⟨b%"AriaSelected", b%"aria-selected", .plain⟩,  -- html/attributes.go:834
  ⟨b%"AriaSetSize", b%"aria-setsize", .plain⟩,  -- html/attributes.go:841
  ⟨b%"AriaValueMax", b%"aria-valuemax", .plain⟩,  -- html/attributes.go:848
  ⟨b%"AriaValueMin", b%"aria-valuemin", .plain⟩,  -- html/attributes.go:855
  ⟨b%"AriaValueNow", b%"aria-valuenow", .plain⟩,  -- html/attributes.go:862
  ⟨b%"AriaValueText", b%"aria-valuetext", .plain⟩,  -- html/attributes.go:869
  ⟨b%"OnAbort", b%"onabort", .plain⟩,  -- html/attributes.go:874
  ⟨b%"OnBeforeUnload", b%"onbeforeunload", .plain⟩,  -- html/attributes.go:879
  ⟨b%"OnBlur", b%"onblur", .plain⟩,  -- html/attributes.go:884
  ⟨b%"OnCanPlay", b%"oncanplay", .plain⟩,  -- html/attributes.go:889
  ⟨b%"OnCanPlayThrough", b%"oncanplaythrough", .plain⟩,  -- html/attributes.go:894
  ⟨b%"OnChange", b%"onchange", .plain⟩,  -- html/attributes.go:899
  ⟨b%"OnClick", b%"onclick", .plain⟩,  -- html/attributes.go:904
  ⟨b%"OnContextMenu", b%"oncontextmenu", .plain⟩,  -- html/attributes.go:909
  ⟨b%"OnCopy", b%"oncopy", .plain⟩,  -- html/attributes.go:914
  ⟨b%"OnCut", b%"oncut", .plain⟩,  -- html/attributes.go:919
  ⟨b%"OnDblClick", b%"ondblclick", .plain⟩,  -- html/attributes.go:924
  ⟨b%"OnDrag", b%"ondrag", .plain⟩,  -- html/attributes.go:929
  ⟨b%"OnDragEnd", b%"ondragend", .plain⟩,  -- html/attributes.go:934
  ⟨b%"OnDragEnter", b%"ondragenter", .plain⟩,  -- html/attributes.go:939
  ⟨b%"OnDragLeave", b%"ondragleave", .plain⟩,  -- html/attributes.go:944
  ⟨b%"OnDragOver", b%"ondragover", .plain⟩,  -- html/attributes.go:949
  ⟨b%"OnDragStart", b%"ondragstart", .plain⟩,  -- html/attributes.go:954
  ⟨b%"OnDrop", b%"ondrop", .plain⟩,  -- html/attributes.go:959
  ⟨b%"OnDurationChange", b%"ondurationchange", .plain⟩,  -- html/attributes.go:964
  ⟨b%"OnEnded", b%"onended", .plain⟩,  -- html/attributes.go:969
  ⟨b%"OnError", b%"onerror", .plain⟩,  -- html/attributes.go:974
  ⟨b%"OnFocus", b%"onfocus", .plain⟩,  -- html/attributes.go:979
  ⟨b%"OnHashChange", b%"onhashchange", .plain⟩,  -- html/attributes.go:984
  ⟨b%"OnInput", b%"oninput", .plain⟩,  -- html/attributes.go:989
  ⟨b%"OnInvalid", b%"oninvalid", .plain⟩,  -- html/attributes.go:994
  ⟨b%"OnKeyDown", b%"onkeydown", .plain⟩,  -- html/attributes.go:999
  ⟨b%"OnKeyPress", b%"onkeypress", .plain⟩,  -- html/attributes.go:1004
  ⟨b%"OnKeyUp", b%"onkeyup", .plain⟩,  -- html/attributes.go:1009
  ⟨b%"OnLoad", b%"onload", .plain⟩,  -- html/attributes.go:1014
  ⟨b%"OnLoadedData", b%"onloadeddata", .plain⟩,  -- html/attributes.go:1019
  ⟨b%"OnLoadedMetadata", b%"onloadedmetadata", .plain⟩,  -- html/attributes.go:1024
  ⟨b%"OnMouseDown", b%"onmousedown", .plain⟩,  -- html/attributes.go:1029
  ⟨b%"OnMouseEnter", b%"onmouseenter", .plain⟩,  -- html/attributes.go:1034
  ⟨b%"OnMouseLeave", b%"onmouseleave", .plain⟩,  -- html/attributes.go:1039
  ⟨b%"OnMouseMove", b%"onmousemove", .plain⟩,  -- html/attributes.go:1044
  ⟨b%"OnMouseOut", b%"onmouseout", .plain⟩,  -- html/attributes.go:1049
  ⟨b%"OnMouseOver", b%"onmouseover", .plain⟩,  -- html/attributes.go:1054
  ⟨b%"OnMouseUp", b%"onmouseup", .plain⟩,  -- html/attributes.go:1059
  ⟨b%"OnPageHide", b%"onpagehide", .plain⟩,  -- html/attributes.go:1064
  ⟨b%"OnPageShow", b%"onpageshow", .plain⟩,  -- html/attributes.go:1069
  ⟨b%"OnPaste", b%"onpaste", .plain⟩,  -- html/attributes.go:1074
  ⟨b%"OnPause", b%"onpause", .plain⟩,  -- html/attributes.go:1079
  ⟨b%"OnPlay", b%"onplay", .plain⟩,  -- html/attributes.go:1084
  ⟨b%"OnPlaying", b%"onplaying", .plain⟩,  -- html/attributes.go:1089
  ⟨b%"OnPopState", b%"onpopstate", .plain⟩,  -- html/attributes.go:1094
  ⟨b%"OnProgress", b%"onprogress", .plain⟩,  -- html/attributes.go:1099
  ⟨b%"OnRateChange", b%"onratechange", .plain⟩,  -- html/attributes.go:1104
  ⟨b%"OnReset", b%"onreset", .plain⟩,  -- html/attributes.go:1109
  ⟨b%"OnResize", b%"onresize", .plain⟩,  -- html/attributes.go:1114
  ⟨b%"OnScroll", b%"onscroll", .plain⟩,  -- html/attributes.go:1119
  ⟨b%"OnSeeked", b%"onseeked", .plain⟩,  -- html/attributes.go:1124
  ⟨b%"OnSeeking", b%"onseeking", .plain⟩,  -- html/attributes.go:1129
  ⟨b%"OnSelect", b%"onselect", .plain⟩,  -- html/attributes.go:1134
  ⟨b%"OnStalled", b%"onstalled", .plain⟩,  -- html/attributes.go:1139
  ⟨b%"OnSubmit", b%"onsubmit", .plain⟩,  -- html/attributes.go:1144
  ⟨b%"OnSuspend", b%"onsuspend", .plain⟩,  -- html/attributes.go:1149
  ⟨b%"OnTimeUpdate", b%"ontimeupdate", .plain⟩,  -- html/attributes.go:1154
  ⟨b%"OnToggle", b%"ontoggle", .plain⟩,  -- html/attributes.go:1159
  ⟨b%"OnUnload", b%"onunload", .plain⟩,  -- html/attributes.go:1164
  ⟨b%"OnVolumeChange", b%"onvolumechange", .plain⟩,  -- html/attributes.go:1169
  ⟨b%"OnWaiting", b%"onwaiting", .plain⟩,  -- html/attributes.go:1174
  ⟨b%"OnPointerDown", b%"onpointerdown", .plain⟩,  -- html/attributes.go:1179
  ⟨b%"OnPointerUp", b%"onpointerup", .plain⟩,  -- html/attributes.go:1184
  ⟨b%"OnPointerMove", b%"onpointermove", .plain⟩,  -- html/attributes.go:1189
  ⟨b%"OnPointerEnter", b%"onpointerenter", .plain⟩,  -- html/attributes.go:1194
  ⟨b%"OnPointerLeave", b%"onpointerleave", .plain⟩,  -- html/attributes.go:1199
  ⟨b%"OnPointerOver", b%"onpointerover", .plain⟩,  -- html/attributes.go:1204
  ⟨b%"OnPointerOut", b%"onpointerout", .plain⟩,  -- html/attributes.go:1209
  ⟨b%"OnPointerCancel", b%"onpointercancel", .plain⟩,  -- html/attributes.go:1214
  ⟨b%"OnTouchStart", b%"ontouchstart", .plain⟩,  -- html/attributes.go:1219
  ⟨b%"OnTouchMove", b%"ontouchmove", .plain⟩,  -- html/attributes.go:1224
  ⟨b%"OnTouchEnd", b%"ontouchend", .plain⟩,  -- html/attributes.go:1229
  ⟨b%"OnTouchCancel", b%"ontouchcancel", .plain⟩,  -- html/attributes.go:1234
  ⟨b%"OnAnimationStart", b%"onanimationstart", .plain⟩,  -- html/attributes.go:1239
  ⟨b%"OnAnimationEnd", b%"onanimationend", .plain⟩,  -- html/attributes.go:1244
  ⟨b%"OnAnimationIteration", b%"onanimationiteration", .plain⟩,  -- html/attributes.go:1249
  ⟨b%"OnTransitionEnd", b%"ontransitionend", .plain⟩,  -- html/attributes.go:1254
  ⟨b%"OnBeforeInput", b%"onbeforeinput", .plain⟩,  -- html/attributes.go:1259
  ⟨b%"OnSlotChange", b%"onslotchange", .plain⟩,  -- html/attributes.go:1264
  ⟨b%"OnFormData", b%"onformdata", .plain⟩,  -- html/attributes.go:1269
  ⟨b%"AccessKey", b%"accesskey", .plain⟩,  -- html/attributes.go:1278
  ⟨b%"AutoCapitalize", b%"autocapitalize", .plain⟩,  -- html/attributes.go:1287
  ⟨b%"AutoCorrect", b%"autocorrect", .plain⟩,  -- html/attributes.go:1296
  ⟨b%"EnterKeyHint", b%"enterkeyhint", .plain⟩,  -- html/attributes.go:1305
  ⟨b%"ExportParts", b%"exportparts", .plain⟩,  -- html/attributes.go:1314
  ⟨b%"InputMode", b%"inputmode", .plain⟩,  -- html/attributes.go:1323
  ⟨b%"Is", b%"is", .plain⟩,  -- html/attributes.go:1332
  ⟨b%"ItemId", b%"itemid", .plain⟩,  -- html/attributes.go:1341
  ⟨b%"ItemProp", b%"itemprop", .plain⟩,  -- html/attributes.go:1350
  ⟨b%"ItemRef", b%"itemref", .plain⟩,  -- html/attributes.go:1359
  ⟨b%"ItemType", b%"itemtype", .plain⟩,  -- html/attributes.go:1368
  ⟨b%"Nonce", b%"nonce", .plain⟩,  -- html/attributes.go:1377
  ⟨b%"Part", b%"part", .plain⟩,  -- html/attributes.go:1386
  ⟨b%"WritingSuggestions", b%"writingsuggestions", .plain⟩  -- html/attributes.go:1395
]

/-- html/generator.go — `elems` of `mappings`: tag and function. -/
def htmlGenElems : List (Bytes × Bytes) := [
  (b%"a", b%"A"),  -- html/generator.go:142
  (b%"abbr", b%"Abbr"),  -- html/generator.go:143
  (b%"address", b%"Address"),  -- html/generator.go:144
  (b%"area", b%"Area"),  -- html/generator.go:145
  (b%"article", b%"Article"),  -- html/generator.go:146
  (b%"aside", b%"Aside"),  -- html/generator.go:147
  (b%"audio", b%"Audio"),  -- html/generator.go:148
  (b%"b", b%"B"),  -- html/generator.go:149
  (b%"base", b%"Base"),  -- html/generator.go:150
  (b%"blockquote", b%"BlockQuote"),  -- html/generator.go:151
  (b%"body", b%"Body"),  -- html/generator.go:152
  (b%"br", b%"Br"),  -- html/generator.go:153
  (b%"button", b%"Button"),  -- html/generator.go:154
  (b%"canvas", b%"Canvas"),  -- html/generator.go:155
  (b%"caption", b%"Caption"),  -- html/generator.go:156
  (b%"cite", b%"Cite"),  -- html/generator.go:157
  (b%"code", b%"Code"),  -- html/generator.go:158
  (b%"col", b%"Col"),  -- html/generator.go:159
  (b%"colgroup", b%"ColGroup"),  -- html/generator.go:160
  (b%"data", b%"DataElement"),  -- html/generator.go:161
  (b%"datalist", b%"DataList"),  -- html/generator.go:162
  (b%"dd", b%"Dd"),  -- html/generator.go:163
  (b%"del", b%"Del"),  -- html/generator.go:164
  (b%"details", b%"Details"),  -- html/generator.go:165
  (b%"dfn", b%"Dfn"),  -- html/generator.go:166
  (b%"dialog", b%"Dialog"),  -- html/generator.go:167
  (b%"div", b%"Div"),  -- html/generator.go:168
  (b%"dl", b%"Dl"),  -- html/generator.go:169
  (b%"dt", b%"Dt"),  -- html/generator.go:170
  (b%"em", b%"Em"),  -- html/generator.go:171
  (b%"embed", b%"Embed"),  -- html/generator.go:172
  (b%"fieldset", b%"FieldSet"),  -- html/generator.go:173
  (b%"figcaption", b%"FigCaption"),  -- html/generator.go:174
  (b%"figure", b%"Figure"),  -- html/generator.go:175
  (b%"footer", b%"Footer"),  -- html/generator.go:176
  (b%"form", b%"Form"),  -- html/generator.go:177
  (b%"h1", b%"H1"),  -- html/generator.go:178
  (b%"h2", b%"H2"),  -- html/generator.go:179
  (b%"h3", b%"H3"),  -- html/generator.go:180
  (b%"h4", b%"H4"),  -- html/generator.go:181
  (b%"h5", b%"H5"),  -- html/generator.go:182
  (b%"h6", b%"H6"),  -- html/generator.go:183
  (b%"head", b%"Head"),  -- html/generator.go:184
  (b%"header", b%"Header"),  -- html/generator.go:185
  (b%"hgroup", b%"HGroup"),  -- html/generator.go:186
  (b%"hr", b%"Hr"),  -- html/generator.go:187
  (b%"html", b%"Html"),  -- html/generator.go:188
  (b%"i", b%"I"),  -- html/generator.go:189
  (b%"iframe", b%"IFrame"),  -- html/generator.go:190
  (b%"img", b%"Img"),  -- html/generator.go:191
  (b%"input", b%"Input"),  -- html/generator.go:192
  (b%"ins", b%"Ins"),  -- html/generator.go:193
  (b%"kbd", b%"Kbd"),  -- html/generator.go:194
  (b%"label", b%"Label"),  -- html/generator.go:195
  (b%"legend", b%"Legend"),  -- html/generator.go:196
  (b%"li", b%"Li"),  -- html/generator.go:197
  (b%"link", b%"Link"),  -- html/generator.go:198
  (b%"main", b%"Main"),  -- html/generator.go:199
  (b%"mark", b%"Mark"),  -- html/generator.go:200
  (b%"menu", b%"Menu"),  -- html/generator.go:201
  (b%"meta", b%"Meta"),  -- html/generator.go:202
  (b%"meter", b%"Meter"),  -- html/generator.go:203
  (b%"nav", b%"Nav"),  -- html/generator.go:204
  (b%"noscript", b%"NoScript"),  -- html/generator.go:205
  (b%"object", b%"Object"),  -- html/generator.go:206
  (b%"ol", b%"Ol"),  -- html/generator.go:207
  (b%"optgroup", b%"OptGroup"),  -- html/generator.go:208
  (b%"option", b%"Option"),  -- html/generator.go:209
  (b%"p", b%"P"),  -- html/generator.go:210
  (b%"param", b%"Param"),  -- html/generator.go:211
  (b%"picture", b%"Picture"),  -- html/generator.go:212
  (b%"pre", b%"Pre"),  -- html/generator.go:213
  (b%"progress", b%"Progress"),  -- html/generator.go:214
  (b%"q", b%"Q"),  -- html/generator.go:215
  (b%"s", b%"S"),  -- html/generator.go:216
  (b%"samp", b%"Samp"),  -- html/generator.go:217
  (b%"script", b%"Script"),  -- html/generator.go:218
  (b%"section", b%"Section"),  -- html/generator.go:219
  (b%"select", b%"Select"),  -- html/generator.go:220
  (b%"slot", b%"Slot"),  -- html/generator.go:221
  (b%"small", b%"Small"),  -- html/generator.go:222
  (b%"source", b%"Source"),  -- html/generator.go:223
  (b%"span", b%"Span"),  -- html/generator.go:224
  (b%"strong", b%"Strong"),  -- html/generator.go:225
  (b%"style", b%"StyleElement"),  -- html/generator.go:226
  (b%"sub", b%"Sub"),  -- html/generator.go:227
  (b%"summary", b%"Summary"),  -- html/generator.go:228
  (b%"sup", b%"Sup"),  -- html/generator.go:229
  (b%"table", b%"Table"),  -- html/generator.go:230
  (b%"tbody", b%"TBody"),  -- html/generator.go:231
  (b%"td", b%"Td"),  -- html/generator.go:232
  (b%"template", b%"Template"),  -- html/generator.go:233
  (b%"textarea", b%"Textarea"),  -- html/generator.go:234
  (b%"tfoot", b%"TFoot"),  -- html/generator.go:235
  (b%"th", b%"Th"),  -- html/generator.go:236
  (b%"thead", b%"THead"),  -- html/generator.go:237
  (b%"time", b%"Time"),  -- html/generator.go:238
  (b%"title", b%"TitleElement"),  -- html/generator.go:239
  (b%"tr", b%"Tr"),  -- html/generator.go:240
  (b%"u", b%"U"),  -- html/generator.go:241
  (b%"ul", b%"Ul"),  -- html/generator.go:242
  (b%"var", b%"Var"),  -- html/generator.go:243
  (b%"video", b%"Video"),  -- html/generator.go:244
  (b%"wbr", b%"Wbr")  -- html/generator.go:245
]

/-- html/generator.go — `attrs` of `mappings`: attribute and function. -/
def htmlGenAttrs : List (Bytes × Bytes) := [
  (b%"accept", b%"Accept"),  -- html/generator.go:248
  (b%"action", b%"Action"),  -- html/generator.go:249
  (b%"allowfullscreen", b%"AllowFullScreen"),  -- html/generator.go:250
  (b%"alt", b%"Alt"),  -- html/generator.go:251
  (b%"aria-", b%"Aria"),  -- html/generator.go:252
  (b%"aria-atomic", b%"AriaAtomic"),  -- html/generator.go:253
  (b%"aria-busy", b%"AriaBusy"),  -- html/generator.go:254
  (b%"aria-checked", b%"AriaChecked"),  -- html/generator.go:255
  (b%"aria-controls", b%"AriaControls"),  -- html/generator.go:256
  (b%"aria-describedby", b%"AriaDescribedBy"),  -- html/generator.go:257
  (b%"aria-disabled", b%"AriaDisabled"),  -- html/generator.go:258
  (b%"aria-expanded", b%"AriaExpanded"),  -- html/generator.go:259
  (b%"aria-flowto", b%"AriaFlowTo"),  -- html/generator.go:260
  (b%"aria-hidden", b%"AriaHidden"),  -- html/generator.go:261
  (b%"aria-invalid", b%"AriaInvalid"),  -- html/generator.go:262
  (b%"aria-label", b%"AriaLabel"),  -- html/generator.go:263
  (b%"aria-labelledby", b%"AriaLabelledBy"),  -- html/generator.go:264
  (b%"aria-live", b%"AriaLive"),  -- html/generator.go:265
  (b%"aria-owns", b%"AriaOwns"),  -- html/generator.go:266
  (b%"aria-placeholder", b%"AriaPlaceholder"),  -- html/generator.go:267
  (b%"aria-posinset", b%"AriaPosInSet"),  -- html/generator.go:268
  (b%"aria-pressed", b%"AriaPressed"),  -- html/generator.go:269
  (b%"aria-readonly", b%"AriaReadonly"),  -- html/generator.go:270
  (b%"aria-relevant", b%"AriaRelevant"),  -- html/generator.go:271
  (b%"aria-required", b%"AriaRequired"),  -- html/generator.go:272
  (b%"aria-selected", b%"AriaSelected"),  -- html/generator.go:273
  (b%"aria-setsize", b%"AriaSetSize"),  -- html/generator.go:274
  (b%"aria-valuemax", b%"AriaValueMax"),  -- html/generator.go:275
  (b%"aria-valuemin", b%"AriaValueMin"),  -- html/generator.go:276
  (b%"aria-valuenow", b%"AriaValueNow"),  -- html/generator.go:277
  (b%"aria-valuetext", b%"AriaValueText"),  -- html/generator.go:278
  (b%"as", b%"As"),  -- html/generator.go:279
  (b%"async", b%"Async"),  -- html/generator.go:280
  (b%"autocomplete", b%"AutoComplete"),  -- html/generator.go:281
  (b%"autofocus", b%"AutoFocus"),  -- html/generator.go:282
  (b%"autoplay", b%"AutoPlay"),  -- html/generator.go:283
  (b%"charset", b%"Charset"),  -- html/generator.go:284
  (b%"checked", b%"Checked"),  -- html/generator.go:285
  (b%"cite", b%"CiteAttr"),  -- html/generator.go:286
  (b%"class", b%"Class"),  -- html/generator.go:287
  (b%"cols", b%"Cols"),  -- html/generator.go:288
  (b%"colspan", b%"ColSpan"),  -- html/generator.go:289
  (b%"content", b%"Content"),  -- html/generator.go:290
  (b%"contenteditable", b%"ContentEditable"),  -- html/generator.go:291
  (b%"controls", b%"Controls"),  -- html/generator.go:292
  (b%"crossorigin", b%"CrossOrigin"),  -- html/generator.go:293
  (b%"data-", b%"Data"),  -- html/generator.go:294
  (b%"datetime", b%"DateTime"),  -- html/generator.go:295
  (b%"default", b%"Default"),  -- html/generator.go:296
  (b%"defer", b%"Defer"),  -- html/generator.go:297
  (b%"dir", b%"Dir"),  -- html/generator.go:298
  (b%"disabled", b%"Disabled"),  -- html/generator.go:299
  (b%"download", b%"Download"),  -- html/generator.go:300
  (b%"draggable", b%"Draggable"),  -- html/generator.go:301
  (b%"enctype", b%"EncType"),  -- html/generator.go:302
  (b%"for", b%"For"),  -- html/generator.go:303
  (b%"form", b%"FormAttr"),  -- html/generator.go:304
  (b%"formnovalidate", b%"FormNoValidate"),  -- html/generator.go:305
  (b%"height", b%"Height"),  -- html/generator.go:306
  (b%"hidden", b%"Hidden"),  -- html/generator.go:307
  (b%"href", b%"Href"),  -- html/generator.go:308
  (b%"id", b%"Id"),  -- html/generator.go:309
  (b%"inert", b%"Inert"),  -- html/generator.go:310
  (b%"integrity", b%"Integrity"),  -- html/generator.go:311
  (b%"ismap", b%"IsMap"),  -- html/generator.go:312
  (b%"itemscope", b%"ItemScope"),  -- html/generator.go:313
  (b%"lang", b%"Lang"),  -- html/generator.go:314
  (b%"list", b%"List"),  -- html/generator.go:315
  (b%"loading", b%"Loading"),  -- html/generator.go:316
  (b%"loop", b%"Loop"),  -- html/generator.go:317
  (b%"max", b%"Max"),  -- html/generator.go:318
  (b%"maxlength", b%"MaxLength"),  -- html/generator.go:319
  (b%"method", b%"Method"),  -- html/generator.go:320
  (b%"min", b%"Min"),  -- html/generator.go:321
  (b%"minlength", b%"MinLength"),  -- html/generator.go:322
  (b%"multiple", b%"Multiple"),  -- html/generator.go:323
  (b%"muted", b%"Muted"),  -- html/generator.go:324
  (b%"name", b%"Name"),  -- html/generator.go:325
  (b%"nomodule", b%"NoModule"),  -- html/generator.go:326
  (b%"novalidate", b%"NoValidate"),  -- html/generator.go:327
  (b%"onabort", b%"OnAbort"),  -- html/generator.go:328
  (b%"onbeforeunload", b%"OnBeforeUnload"),  -- html/generator.go:329
  (b%"onblur", b%"OnBlur"),  -- html/generator.go:330
  (b%"oncanplay", b%"OnCanPlay"),  -- html/generator.go:331
  (b%"oncanplaythrough", b%"OnCanPlayThrough"),  -- html/generator.go:332
  (b%"onchange", b%"OnChange"),  -- html/generator.go:333
  (b%"onclick", b%"OnClick"),  -- html/generator.go:334
  (b%"oncontextmenu", b%"OnContextMenu"),  -- html/generator.go:335
  (b%"oncopy", b%"OnCopy"),  -- html/generator.go:336
  (b%"oncut", b%"OnCut"),  -- html/generator.go:337
  (b%"ondblclick", b%"OnDblClick"),  -- html/generator.go:338
  (b%"ondrag", b%"OnDrag"),  -- html/generator.go:339
  (b%"ondragend", b%"OnDragEnd"),  -- html/generator.go:340
  (b%"ondragenter", b%"OnDragEnter"),  -- html/generator.go:341
  (b%"ondragleave", b%"OnDragLeave"),  -- html/generator.go:342
  (b%"ondragover", b%"OnDragOver"),  -- html/generator.go:343
  (b%"ondragstart", b%"OnDragStart"),  -- html/generator.go:344
  (b%"ondrop", b%"OnDrop"),  -- html/generator.go:345
  (b%"ondurationchange", b%"OnDurationChange"),  -- html/generator.go:346
  (b%"onended", b%"OnEnded"),  -- html/generator.go:347
  (b%"onerror", b%"OnError"),  -- html/generator.go:348
  (b%"onfocus", b%"OnFocus"),  -- html/generator.go:349
  (b%"onhashchange", b%"OnHashChange"),  -- html/generator.go:350
  (b%"oninput", b%"OnInput"),  -- html/generator.go:351
  (b%"oninvalid", b%"OnInvalid"),  -- html/generator.go:352
  (b%"onkeydown", b%"OnKeyDown"),  -- html/generator.go:353
  (b%"onkeypress", b%"OnKeyPress"),  -- html/generator.go:354
  (b%"onkeyup", b%"OnKeyUp"),  -- html/generator.go:355
  (b%"onload", b%"OnLoad"),  -- html/generator.go:356
  (b%"onloadeddata", b%"OnLoadedData"),  -- html/generator.go:357
  (b%"onloadedmetadata", b%"OnLoadedMetadata"),  -- html/generator.go:358
  (b%"onmousedown", b%"OnMouseDown"),  -- html/generator.go:359
  (b%"onmouseenter", b%"OnMouseEnter"),  -- html/generator.go:360
  (b%"onmouseleave", b%"OnMouseLeave"),  -- html/generator.go:361
  (b%"onmousemove", b%"OnMouseMove"),  -- html/generator.go:362
  (b%"onmouseout", b%"OnMouseOut"),  -- html/generator.go:363
  (b%"onmouseover", b%"OnMouseOver"),  -- html/generator.go:364
  (b%"onmouseup", b%"OnMouseUp"),  -- html/generator.go:365
  (b%"onpagehide", b%"OnPageHide"),  -- html/generator.go:366
  (b%"onpageshow", b%"OnPageShow"),  -- html/generator.go:367
  (b%"onpaste", b%"OnPaste"),  -- html/generator.go:368
  (b%"onpause", b%"OnPause"),  -- html/generator.go:369
  (b%"onplay", b%"OnPlay"),  -- html/generator.go:370
  (b%"onplaying", b%"OnPlaying"),  -- html/generator.go:371
  (b%"onpopstate", b%"OnPopState"),  -- html/generator.go:372
  (b%"onprogress", b%"OnProgress"),  -- html/generator.go:373
  (b%"onratechange", b%"OnRateChange"),  -- html/generator.go:374
  (b%"onreset", b%"OnReset"),  -- html/generator.go:375
  (b%"onresize", b%"OnResize"),  -- html/generator.go:376
  (b%"onscroll", b%"OnScroll"),  -- html/generator.go:377
  (b%"onseeked", b%"OnSeeked"),  -- html/generator.go:378
  (b%"onseeking", b%"OnSeeking"),  -- html/generator.go:379
  (b%"onselect", b%"OnSelect"),  -- html/generator.go:380
  (b%"onstalled", b%"OnStalled"),  -- html/generator.go:381
  (b%"onsubmit", b%"OnSubmit"),  -- html/generator.go:382
  (b%"onsuspend", b%"OnSuspend"),  -- html/generator.go:383
  (b%"ontimeupdate", b%"OnTimeUpdate"),  -- html/generator.go:384
  (b%"ontoggle", b%"OnToggle"),  -- html/generator.go:385
  (b%"onunload", b%"OnUnload"),  -- html/generator.go:386
  (b%"onvolumechange", b%"OnVolumeChange"),  -- html/generator.go:387
  (b%"onwaiting", b%"OnWaiting"),  -- html/generator.go:388
  (b%"open", b%"Open"),  -- html/generator.go:389
  (b%"pattern", b%"Pattern"),  -- html/generator.go:390
  (b%"placeholder", b%"Placeholder"),  -- html/generator.go:391
  (b%"playsinline", b%"PlaysInline"),  -- html/generator.go:392
  (b%"popover", b%"PopOver"),  -- html/generator.go:393
  (b%"popovertarget", b%"PopOverTarget"),  -- html/generator.go:394
  (b%"popovertargetaction", b%"PopOverTargetAction"),  -- html/generator.go:395
  (b%"poster", b%"Poster"),  -- html/generator.go:396
  (b%"preload", b%"Preload"),  -- html/generator.go:397
  (b%"readonly", b%"ReadOnly"),  -- html/generator.go:398
  (b%"referrerpolicy", b%"ReferrerPolicy"),  -- html/generator.go:399
  (b%"rel", b%"Rel"),  -- html/generator.go:400
  (b%"required", b%"Required"),  -- html/generator.go:401
  (b%"reversed", b%"Reversed"),  -- html/generator.go:402
  (b%"role", b%"Role"),  -- html/generator.go:403
  (b%"rows", b%"Rows"),  -- html/generator.go:404
  (b%"rowspan", b%"RowSpan"),  -- html/generator.go:405
  (b%"selected", b%"Selected"),  -- html/generator.go:406
  (b%"slot", b%"SlotAttr"),  -- html/generator.go:407
  (b%"spellcheck", b%"Spellcheck"),  -- html/generator.go:408
  (b%"src", b%"Src"),  -- html/generator.go:409
  (b%"srcset", b%"SrcSet"),  -- html/generator.go:410
  (b%"step", b%"Step"),  -- html/generator.go:411
  (b%"style", b%"Style"),  -- html/generator.go:412
  (b%"tabindex", b%"TabIndex"),  -- html/generator.go:413
  (b%"target", b%"Target"),  -- html/generator.go:414
  (b%"title", b%"Title"),  -- html/generator.go:415
  (b%"translate", b%"Translate"),  -- html/generator.go:416
  (b%"type", b%"Type"),  -- html/generator.go:417
  (b%"value", b%"Value"),  -- html/generator.go:418
  (b%"width", b%"Width")  -- html/generator.go:419
]

/-- html/generator.go — `boolAttrs` of `mappings` (all entries are true). -/
def htmlGenBools : List Bytes := [
  b%"allowfullscreen",  -- html/generator.go:422
  b%"async",  -- html/generator.go:423
  b%"autofocus",  -- html/generator.go:424
  b%"autoplay",  -- html/generator.go:425
  b%"checked",  -- html/generator.go:426
  b%"controls",  -- html/generator.go:427
  b%"default",  -- html/generator.go:428
  b%"defer",  -- html/generator.go:429
  b%"disabled",  -- html/generator.go:430
  b%"formnovalidate",  -- html/generator.go:431
  b%"hidden",  -- html/generator.go:432
  b%"inert",  -- html/generator.go:433
  b%"ismap",  -- html/generator.go:434
  b%"itemscope",  -- html/generator.go:435
  b%"loop",  -- html/generator.go:436
  b%"multiple",  -- html/generator.go:437
  b%"muted",  -- html/generator.go:438
  b%"nomodule",  -- html/generator.go:439
  b%"novalidate",  -- html/generator.go:440
  b%"open",  -- html/generator.go:441
  b%"playsinline",  -- html/generator.go:442
  b%"readonly",  -- html/generator.go:443
  b%"required",  -- html/generator.go:444
  b%"reversed",  -- html/generator.go:445
  b%"selected",  -- html/generator.go:446
  b%"spellcheck",  -- html/generator.go:447
  b%"translate"  -- html/generator.go:448
]

end Aitch
