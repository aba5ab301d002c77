import Verif.Model.Library
/-
Generated from the source text by matching each function against its one-line body; one row per function.
Packages svg/elements.go and svg/attributes.go (all functions) and the maps of svg/generator.go.
-/
namespace Aitch

/-- svg/elements.go — every element function. -/
def svgElements : List ElemFn := [
  ⟨b%"Svg", b%"svg", false⟩,  -- svg/elements.go:8
  ⟨b%"AltGlyph", b%"altGlyph", false⟩,  -- svg/elements.go:13
  ⟨b%"Animate", b%"animate", false⟩,  -- svg/elements.go:20
  ⟨b%"AnimateMotion", b%"animateMotion", false⟩,  -- svg/elements.go:27
  ⟨b%"AnimateTransform", b%"animateTransform", false⟩,  -- svg/elements.go:34
  ⟨b%"Circle", b%"circle", false⟩,  -- svg/elements.go:41
  ⟨b%"ClipPath", b%"clipPath", false⟩,  -- svg/elements.go:48
  ⟨b%"Defs", b%"defs", false⟩,  -- svg/elements.go:55
  ⟨b%"Desc", b%"desc", false⟩,  -- svg/elements.go:62
  ⟨b%"Discard", b%"discard", false⟩,  -- svg/elements.go:69
  ⟨b%"Ellipse", b%"ellipse", false⟩,  -- svg/elements.go:76
  ⟨b%"FeBlend", b%"feBlend", false⟩,  -- svg/elements.go:83
  ⟨b%"FeColorMatrix", b%"feColorMatrix", false⟩,  -- svg/elements.go:90
  ⟨b%"FeComponentTransfer", b%"feComponentTransfer", false⟩,  -- svg/elements.go:97
  ⟨b%"FeComposite", b%"feComposite", false⟩,  -- svg/elements.go:104
  ⟨b%"FeConvolveMatrix", b%"feConvolveMatrix", false⟩,  -- svg/elements.go:111
  ⟨b%"FeDiffuseLighting", b%"feDiffuseLighting", false⟩,  -- svg/elements.go:118
  ⟨b%"FeDisplacementMap", b%"feDisplacementMap", false⟩,  -- svg/elements.go:125
  ⟨b%"FeDistantLight", b%"feDistantLight", false⟩,  -- svg/elements.go:132
  ⟨b%"FeDropShadow", b%"feDropShadow", false⟩,  -- svg/elements.go:139
  ⟨b%"FeFlood", b%"feFlood", false⟩,  -- svg/elements.go:146
  ⟨b%"FeFuncA", b%"feFuncA", false⟩,  -- svg/elements.go:153
  ⟨b%"FeFuncB", b%"feFuncB", false⟩,  -- svg/elements.go:160
  ⟨b%"FeFuncG", b%"feFuncG", false⟩,  -- svg/elements.go:167
  ⟨b%"FeFuncR", b%"feFuncR", false⟩,  -- svg/elements.go:174
  ⟨b%"FeGaussianBlur", b%"feGaussianBlur", false⟩,  -- svg/elements.go:181
  ⟨b%"FeImage", b%"feImage", false⟩,  -- svg/elements.go:188
  ⟨b%"FeMerge", b%"feMerge", false⟩,  -- svg/elements.go:195
  ⟨b%"FeMergeNode", b%"feMergeNode", false⟩,  -- svg/elements.go:202
  ⟨b%"FeMorphology", b%"feMorphology", false⟩,  -- svg/elements.go:209
  ⟨b%"FeOffset", b%"feOffset", false⟩,  -- svg/elements.go:216
  ⟨b%"FePointLight", b%"fePointLight", false⟩,  -- svg/elements.go:223
  ⟨b%"FeSpecularLighting", b%"feSpecularLighting", false⟩,  -- svg/elements.go:230
  ⟨b%"FeSpotLight", b%"feSpotLight", false⟩,  -- svg/elements.go:237
  ⟨b%"FeTile", b%"feTile", false⟩,  -- svg/elements.go:244
  ⟨b%"FeTurbulence", b%"feTurbulence", false⟩,  -- svg/elements.go:251
  ⟨b%"Filter", b%"filter", false⟩,  -- svg/elements.go:258
  ⟨b%"ForeignObject", b%"foreignObject", false⟩,  -- svg/elements.go:265
  ⟨b%"G", b%"g", false⟩,  -- svg/elements.go:272
  ⟨b%"Glyph", b%"glyph", false⟩,  -- svg/elements.go:279
  ⟨b%"Line", b%"line", false⟩,  -- svg/elements.go:286
  ⟨b%"LinearGradient", b%"linearGradient", false⟩,  -- svg/elements.go:293
  ⟨b%"Marker", b%"marker", false⟩,  -- svg/elements.go:300
  ⟨b%"Mask", b%"mask", false⟩,  -- svg/elements.go:307
  ⟨b%"Metadata", b%"metadata", false⟩,  -- svg/elements.go:314
  ⟨b%"Mpath", b%"mpath", false⟩,  -- svg/elements.go:321
  ⟨b%"Path", b%"path", false⟩,  -- svg/elements.go:328
  ⟨b%"Pattern", b%"pattern", false⟩,  -- svg/elements.go:335
  ⟨b%"Polygon", b%"polygon", false⟩,  -- svg/elements.go:342
  ⟨b%"Polyline", b%"polyline", false⟩,  -- svg/elements.go:349
  ⟨b%"RadialGradient", b%"radialGradient", false⟩,  -- svg/elements.go:356
  ⟨b%"Rect", b%"rect", false⟩,  -- svg/elements.go:363
  ⟨b%"Script", b%"script", false⟩,  -- svg/elements.go:370
  ⟨b%"Set", b%"set", false⟩,  -- svg/elements.go:377
  ⟨b%"SolidColor", b%"solidcolor", false⟩,  -- svg/elements.go:384
  ⟨b%"Stop", b%"stop", false⟩,  -- svg/elements.go:391
  ⟨b%"StyleElement", b%"style", false⟩,  -- svg/elements.go:398
  ⟨b%"Symbol", b%"symbol", false⟩,  -- svg/elements.go:405
  ⟨b%"TextElement", b%"text", false⟩,  -- svg/elements.go:412
  ⟨b%"TextPath", b%"textPath", false⟩,  -- svg/elements.go:419
  ⟨b%"Title", b%"title", false⟩,  -- svg/elements.go:426
  ⟨b%"TRef", b%"tref", false⟩,  -- svg/elements.go:433
  ⟨b%"TSpan", b%"tspan", false⟩,  -- svg/elements.go:440
  ⟨b%"Use", b%"use", false⟩,  -- svg/elements.go:447
  ⟨b%"Switch", b%"switch", false⟩,  -- svg/elements.go:454
  ⟨b%"View", b%"view", false⟩  -- svg/elements.go:461
]

/-- svg/attributes.go — every attribute function. -/
def svgAttributes : List AttrFn := [
  ⟨b%"Accumulate", b%"accumulate", .plain⟩,  -- svg/attributes.go:6
  ⟨b%"Additive", b%"additive", .plain⟩,  -- svg/attributes.go:11
  ⟨b%"AlignmentBaseline", b%"alignment-baseline", .plain⟩,  -- svg/attributes.go:16
  ⟨b%"AttributeName", b%"attributeName", .plain⟩,  -- svg/attributes.go:21
  ⟨b%"AttributeType", b%"attributeType", .plain⟩,  -- svg/attributes.go:26
  ⟨b%"BaselineShift", b%"baseline-shift", .plain⟩,  -- svg/attributes.go:31
  ⟨b%"Begin", b%"begin", .plain⟩,  -- svg/attributes.go:36
  ⟨b%"By", b%"by", .plain⟩,  -- svg/attributes.go:41
  ⟨b%"CalcMode", b%"calcMode", .plain⟩,  -- svg/attributes.go:46
  ⟨b%"Class", b%"class", .plain⟩,  -- svg/attributes.go:51
  ⟨b%"Clip", b%"clip", .plain⟩,  -- svg/attributes.go:56
  ⟨b%"ClipPathAttr", b%"clip-path", .plain⟩,  -- svg/attributes.go:61
  ⟨b%"ClipRule", b%"clip-rule", .plain⟩,  -- svg/attributes.go:66
  ⟨b%"Color", b%"color", .plain⟩,  -- svg/attributes.go:71
  ⟨b%"ColorInterpolation", b%"color-interpolation", .plain⟩,  -- svg/attributes.go:76
  ⟨b%"ColorInterpolationFilters", b%"color-interpolation-filters", .plain⟩,  -- svg/attributes.go:81
  ⟨b%"ColorProfile", b%"color-profile", .plain⟩,  -- svg/attributes.go:86
  ⟨b%"ColorRendering", b%"color-rendering", .plain⟩,  -- svg/attributes.go:91
  ⟨b%"Cursor", b%"cursor", .plain⟩,  -- svg/attributes.go:96
  ⟨b%"Cx", b%"cx", .plain⟩,  -- svg/attributes.go:101
  ⟨b%"Cy", b%"cy", .plain⟩,  -- svg/attributes.go:106
  ⟨b%"D", b%"d", .plain⟩,  -- svg/attributes.go:111
  ⟨b%"Direction", b%"direction", .plain⟩,  -- svg/attributes.go:116
  ⟨b%"Display", b%"display", .plain⟩,  -- svg/attributes.go:121
  ⟨b%"DominantBaseline", b%"dominant-baseline", .plain⟩,  -- svg/attributes.go:126
  ⟨b%"Dur", b%"dur", .plain⟩,  -- svg/attributes.go:131
  ⟨b%"Dx", b%"dx", .plain⟩,  -- svg/attributes.go:136
  ⟨b%"Dy", b%"dy", .plain⟩,  -- svg/attributes.go:141
  ⟨b%"EnableBackground", b%"enable-background", .plain⟩,  -- svg/attributes.go:146
  ⟨b%"End", b%"end", .plain⟩,  -- svg/attributes.go:151
  ⟨b%"ExternalResourcesRequired", b%"externalResourcesRequired", .plain⟩,  -- svg/attributes.go:156
  ⟨b%"Fill", b%"fill", .plain⟩,  -- svg/attributes.go:161
  ⟨b%"FillOpacity", b%"fill-opacity", .plain⟩,  -- svg/attributes.go:166
  ⟨b%"FillRule", b%"fill-rule", .plain⟩,  -- svg/attributes.go:171
  ⟨b%"FilterAttr", b%"filter", .plain⟩,  -- svg/attributes.go:176
  ⟨b%"FilterUnits", b%"filterUnits", .plain⟩,  -- svg/attributes.go:181
  ⟨b%"FloodColor", b%"flood-color", .plain⟩,  -- svg/attributes.go:186
  ⟨b%"FloodOpacity", b%"flood-opacity", .plain⟩,  -- svg/attributes.go:191
  ⟨b%"FontFamily", b%"font-family", .plain⟩,  -- svg/attributes.go:196
  ⟨b%"FontSize", b%"font-size", .plain⟩,  -- svg/attributes.go:201
  ⟨b%"FontSizeAdjust", b%"font-size-adjust", .plain⟩,  -- svg/attributes.go:206
  ⟨b%"FontStretch", b%"font-stretch", .plain⟩,  -- svg/attributes.go:211
  ⟨b%"FontStyle", b%"font-style", .plain⟩,  -- svg/attributes.go:216
  ⟨b%"FontVariant", b%"font-variant", .plain⟩,  -- svg/attributes.go:221
  ⟨b%"FontWeight", b%"font-weight", .plain⟩,  -- svg/attributes.go:226
  ⟨b%"From", b%"from", .plain⟩,  -- svg/attributes.go:231
  ⟨b%"Fx", b%"fx", .plain⟩,  -- svg/attributes.go:236
  ⟨b%"Fy", b%"fy", .plain⟩,  -- svg/attributes.go:241
  ⟨b%"GlyphOrientationHorizontal", b%"glyph-orientation-horizontal", .plain⟩,  -- svg/attributes.go:246
  ⟨b%"GlyphOrientationVertical", b%"glyph-orientation-vertical", .plain⟩,  -- svg/attributes.go:251
  ⟨b%"GradientTransform", b%"gradientTransform", .plain⟩,  -- svg/attributes.go:256
  ⟨b%"GradientUnits", b%"gradientUnits", .plain⟩,  -- svg/attributes.go:261
  ⟨b%"Height", b%"height", .plain⟩,  -- svg/attributes.go:266
  ⟨b%"Href", b%"href", .plain⟩,  -- svg/attributes.go:271
  ⟨b%"Id", b%"id", .plain⟩,  -- svg/attributes.go:276
  ⟨b%"ImageRendering", b%"image-rendering", .plain⟩,  -- svg/attributes.go:281
  ⟨b%"Kerning", b%"kerning", .plain⟩,  -- svg/attributes.go:286
  ⟨b%"KeyPoints", b%"keyPoints", .plain⟩,  -- svg/attributes.go:291
  ⟨b%"KeySplines", b%"keySplines", .plain⟩,  -- svg/attributes.go:296
  ⟨b%"KeyTimes", b%"keyTimes", .plain⟩,  -- svg/attributes.go:301
  ⟨b%"LengthAdjust", b%"lengthAdjust", .plain⟩,  -- svg/attributes.go:306
  ⟨b%"LetterSpacing", b%"letter-spacing", .plain⟩,  -- svg/attributes.go:311
  ⟨b%"LightingColor", b%"lighting-color", .plain⟩,  -- svg/attributes.go:316
  ⟨b%"MarkerEnd", b%"marker-end", .plain⟩,  -- svg/attributes.go:321
  ⟨b%"MarkerMid", b%"marker-mid", .plain⟩,  -- svg/attributes.go:326
  ⟨b%"MarkerStart", b%"marker-start", .plain⟩,  -- svg/attributes.go:331
  ⟨b%"MarkerHeight", b%"markerHeight", .plain⟩,  -- svg/attributes.go:336
  ⟨b%"MarkerUnits", b%"markerUnits", .plain⟩,  -- svg/attributes.go:341
  ⟨b%"MarkerWidth", b%"markerWidth", .plain⟩,  -- svg/attributes.go:346
  ⟨b%"MaskAttr", b%"mask", .plain⟩,  -- svg/attributes.go:351
  ⟨b%"OnBlur", b%"onblur", .plain⟩,  -- svg/attributes.go:356
  ⟨b%"OnClick", b%"onclick", .plain⟩,  -- svg/attributes.go:361
  ⟨b%"OnFocus", b%"onfocus", .plain⟩,  -- svg/attributes.go:366
  ⟨b%"OnLoad", b%"onload", .plain⟩,  -- svg/attributes.go:371
  ⟨b%"OnMouseDown", b%"onmousedown", .plain⟩,  -- svg/attributes.go:376
  ⟨b%"OnMouseMove", b%"onmousemove", .plain⟩,  -- svg/attributes.go:381
  ⟨b%"OnMouseOut", b%"onmouseout", .plain⟩,  -- svg/attributes.go:386
  ⟨b%"OnMouseOver", b%"onmouseover", .plain⟩,  -- svg/attributes.go:391
  ⟨b%"OnMouseUp", b%"onmouseup", .plain⟩,  -- svg/attributes.go:396
  ⟨b%"OnUnload", b%"onunload", .plain⟩,  -- svg/attributes.go:401
  ⟨b%"Opacity", b%"opacity", .plain⟩,  -- svg/attributes.go:406
  ⟨b%"Orient", b%"orient", .plain⟩,  -- svg/attributes.go:411
  ⟨b%"PathAttr", b%"path", .plain⟩,  -- svg/attributes.go:416
  ⟨b%"PathLength", b%"pathLength", .plain⟩,  -- svg/attributes.go:421
  ⟨b%"PatternContentUnits", b%"patternContentUnits", .plain⟩,  -- svg/attributes.go:426
  ⟨b%"PatternTransform", b%"patternTransform", .plain⟩,  -- svg/attributes.go:431
  ⟨b%"PatternUnits", b%"patternUnits", .plain⟩,  -- svg/attributes.go:436
  ⟨b%"PointerEvents", b%"pointer-events", .plain⟩,  -- svg/attributes.go:441
  ⟨b%"Points", b%"points", .plain⟩,  -- svg/attributes.go:446
  ⟨b%"PreserveAspectRatio", b%"preserveAspectRatio", .plain⟩,  -- svg/attributes.go:451
  ⟨b%"PrimitiveUnits", b%"primitiveUnits", .plain⟩,  -- svg/attributes.go:456
  ⟨b%"R", b%"r", .plain⟩,  -- svg/attributes.go:461
  ⟨b%"RefX", b%"refX", .plain⟩,  -- svg/attributes.go:466
  ⟨b%"RefY", b%"refY", .plain⟩,  -- svg/attributes.go:471
  ⟨b%"RepeatCount", b%"repeatCount", .plain⟩,  -- svg/attributes.go:476
  ⟨b%"RepeatDur", b%"repeatDur", .plain⟩,  -- svg/attributes.go:481
  ⟨b%"RequiredExtensions", b%"requiredExtensions", .plain⟩,  -- svg/attributes.go:486
  ⟨b%"RequiredFeatures", b%"requiredFeatures", .plain⟩,  -- svg/attributes.go:491
  ⟨b%"Rotate", b%"rotate", .plain⟩,  -- svg/attributes.go:496
  ⟨b%"Rx", b%"rx", .plain⟩,  -- svg/attributes.go:501
  ⟨b%"Ry", b%"ry", .plain⟩,  -- svg/attributes.go:506
  ⟨b%"ShapeRendering", b%"shape-rendering", .plain⟩,  -- svg/attributes.go:511
  ⟨b%"SpreadMethod", b%"spreadMethod", .plain⟩,  -- svg/attributes.go:516
  ⟨b%"StopColor", b%"stop-color", .plain⟩,  -- svg/attributes.go:521
  ⟨b%"StopOpacity", b%"stop-opacity", .plain⟩,  -- svg/attributes.go:526
  ⟨b%"Stroke", b%"stroke", .plain⟩,  -- svg/attributes.go:531
  ⟨b%"StrokeDashArray", b%"stroke-dasharray", .plain⟩,  -- svg/attributes.go:536
  ⟨b%"StrokeDashOffset", b%"stroke-dashoffset", .plain⟩,  -- svg/attributes.go:541
  ⟨b%"StrokeLineCap", b%"stroke-linecap", .plain⟩,  -- svg/attributes.go:546
  ⟨b%"StrokeLineJoin", b%"stroke-linejoin", .plain⟩,  -- svg/attributes.go:551
  ⟨b%"StrokeMiterLimit", b%"stroke-miterlimit", .plain⟩,  -- svg/attributes.go:556
  ⟨b%"StrokeOpacity", b%"stroke-opacity", .plain⟩,  -- svg/attributes.go:561
  ⟨b%"StrokeWidth", b%"stroke-width", .plain⟩,  -- svg/attributes.go:566
  ⟨b%"Style", b%"style", .delim b%"; "⟩,  -- svg/attributes.go:573
  ⟨b%"SystemLanguage", b%"systemLanguage", .plain⟩,  -- svg/attributes.go:578
  ⟨b%"TabIndex", b%"tabindex", .plain⟩,  -- svg/attributes.go:583
  ⟨b%"TextAnchor", b%"text-anchor", .plain⟩,  -- svg/attributes.go:588
  ⟨b%"TextDecoration", b%"text-decoration", .plain⟩,  -- svg/attributes.go:593
  ⟨b%"TextRendering", b%"text-rendering", .plain⟩,  -- svg/attributes.go:598
  ⟨b%"TextLength", b%"textLength", .plain⟩,  -- svg/attributes.go:603
  ⟨b%"To", b%"to", .plain⟩,  -- svg/attributes.go:608
  ⟨b%"Type", b%"type", .plain⟩,  -- svg/attributes.go:613
  ⟨b%"UnicodeBidi", b%"unicode-bidi", .plain⟩,  -- svg/attributes.go:618
  ⟨b%"Values", b%"values", .plain⟩,  -- svg/attributes.go:623
  ⟨b%"Visibility", b%"visibility", .plain⟩,  -- svg/attributes.go:628
  ⟨b%"Width", b%"width", .plain⟩,  -- svg/attributes.go:633
  ⟨b%"WordSpacing", b%"word-spacing", .plain⟩,  -- svg/attributes.go:638
  ⟨b%"WritingMode", b%"writing-mode", .plain⟩,  -- svg/attributes.go:643
  ⟨b%"X", b%"x", .plain⟩,  -- svg/attributes.go:648
  ⟨b%"X1", b%"x1", .plain⟩,  -- svg/attributes.go:653
  ⟨b%"X2", b%"x2", .plain⟩,  -- svg/attributes.go:658
  ⟨b%"XlinkActuate", b%"xlink:actuate", .plain⟩,  -- svg/attributes.go:663
  ⟨b%"XlinkArcrole", b%"xlink:arcrole", .plain⟩,  -- svg/attributes.go:668
  ⟨b%"XlinkHref", b%"xlink:href", .plain⟩,  -- svg/attributes.go:673
  ⟨b%"XlinkRole", b%"xlink:role", .plain⟩,  -- svg/attributes.go:678
  ⟨b%"XlinkShow", b%"xlink:show", .plain⟩,  -- svg/attributes.go:683
  ⟨b%"XlinkTitle", b%"xlink:title", .plain⟩,  -- svg/attributes.go:688
  ⟨b%"XmlBase", b%"xml:base", .plain⟩,  -- svg/attributes.go:693
  ⟨b%"XmlLang", b%"xml:lang", .plain⟩,  -- svg/attributes.go:698
  ⟨b%"XmlSpace", b%"xml:space", .plain⟩,  -- svg/attributes.go:703
  ⟨b%"Y", b%"y", .plain⟩,  -- svg/attributes.go:708
  ⟨b%"Y1", b%"y1", .plain⟩,  -- svg/attributes.go:713
  ⟨b%"Y2", b%"y2", .plain⟩  -- svg/attributes.go:718
]

/-- svg/generator.go — `elems` of `mappings`: tag and function. -/
def svgGenElems : List (Bytes × Bytes) := [
  (b%"altGlyph", b%"AltGlyph"),  -- svg/generator.go:134
  (b%"animate", b%"Animate"),  -- svg/generator.go:135
  (b%"animateMotion", b%"AnimateMotion"),  -- svg/generator.go:136
  (b%"animateTransform", b%"AnimateTransform"),  -- svg/generator.go:137
  (b%"circle", b%"Circle"),  -- svg/generator.go:138
  (b%"clipPath", b%"ClipPath"),  -- svg/generator.go:139
  (b%"defs", b%"Defs"),  -- svg/generator.go:140
  (b%"desc", b%"Desc"),  -- svg/generator.go:141
  (b%"discard", b%"Discard"),  -- svg/generator.go:142
  (b%"ellipse", b%"Ellipse"),  -- svg/generator.go:143
  (b%"feBlend", b%"FeBlend"),  -- svg/generator.go:144
  (b%"feColorMatrix", b%"FeColorMatrix"),  -- svg/generator.go:145
  (b%"feComponentTransfer", b%"FeComponentTransfer"),  -- svg/generator.go:146
  (b%"feComposite", b%"FeComposite"),  -- svg/generator.go:147
  (b%"feConvolveMatrix", b%"FeConvolveMatrix"),  -- svg/generator.go:148
  (b%"feDiffuseLighting", b%"FeDiffuseLighting"),  -- svg/generator.go:149
  (b%"feDisplacementMap", b%"FeDisplacementMap"),  -- svg/generator.go:150
  (b%"feDistantLight", b%"FeDistantLight"),  -- svg/generator.go:151
  (b%"feDropShadow", b%"FeDropShadow"),  -- svg/generator.go:152
  (b%"feFlood", b%"FeFlood"),  -- svg/generator.go:153
  (b%"feFuncA", b%"FeFuncA"),  -- svg/generator.go:154
  (b%"feFuncB", b%"FeFuncB"),  -- svg/generator.go:155
  (b%"feFuncG", b%"FeFuncG"),  -- svg/generator.go:156
  (b%"feFuncR", b%"FeFuncR"),  -- svg/generator.go:157
  (b%"feGaussianBlur", b%"FeGaussianBlur"),  -- svg/generator.go:158
  (b%"feImage", b%"FeImage"),  -- svg/generator.go:159
  (b%"feMerge", b%"FeMerge"),  -- svg/generator.go:160
  (b%"feMergeNode", b%"FeMergeNode"),  -- svg/generator.go:161
  (b%"feMorphology", b%"FeMorphology"),  -- svg/generator.go:162
  (b%"feOffset", b%"FeOffset"),  -- svg/generator.go:163
  (b%"fePointLight", b%"FePointLight"),  -- svg/generator.go:164
  (b%"feSpecularLighting", b%"FeSpecularLighting"),  -- svg/generator.go:165
  (b%"feSpotLight", b%"FeSpotLight"),  -- svg/generator.go:166
  (b%"feTile", b%"FeTile"),  -- svg/generator.go:167
  (b%"feTurbulence", b%"FeTurbulence"),  -- svg/generator.go:168
  (b%"filter", b%"Filter"),  -- svg/generator.go:169
  (b%"foreignObject", b%"ForeignObject"),  -- svg/generator.go:170
  (b%"g", b%"G"),  -- svg/generator.go:171
  (b%"glyph", b%"Glyph"),  -- svg/generator.go:172
  (b%"line", b%"Line"),  -- svg/generator.go:173
  (b%"linearGradient", b%"LinearGradient"),  -- svg/generator.go:174
  (b%"marker", b%"Marker"),  -- svg/generator.go:175
  (b%"mask", b%"Mask"),  -- svg/generator.go:176
  (b%"metadata", b%"Metadata"),  -- svg/generator.go:177
  (b%"mpath", b%"Mpath"),  -- svg/generator.go:178
  (b%"path", b%"Path"),  -- svg/generator.go:179
  (b%"pattern", b%"Pattern"),  -- svg/generator.go:180
  (b%"polygon", b%"Polygon"),  -- svg/generator.go:181
  (b%"polyline", b%"Polyline"),  -- svg/generator.go:182
  (b%"radialGradient", b%"RadialGradient"),  -- svg/generator.go:183
  (b%"rect", b%"Rect"),  -- svg/generator.go:184
  (b%"script", b%"Script"),  -- svg/generator.go:185
  (b%"set", b%"Set"),  -- svg/generator.go:186
  (b%"solidcolor", b%"SolidColor"),  -- svg/generator.go:187
  (b%"stop", b%"Stop"),  -- svg/generator.go:188
  (b%"style", b%"StyleElement"),  -- svg/generator.go:189
  (b%"svg", b%"Svg"),  -- svg/generator.go:190
  (b%"symbol", b%"Symbol"),  -- svg/generator.go:191
  (b%"text", b%"TextElement"),  -- svg/generator.go:192
  (b%"textPath", b%"TextPath"),  -- svg/generator.go:193
  (b%"title", b%"Title"),  -- svg/generator.go:194
  (b%"tref", b%"TRef"),  -- svg/generator.go:195
  (b%"tspan", b%"TSpan"),  -- svg/generator.go:196
  (b%"use", b%"Use")  -- svg/generator.go:197
]

/-- svg/generator.go — `attrs` of `mappings`: attribute and function. -/
def svgGenAttrs : List (Bytes × Bytes) := [
  (b%"accumulate", b%"Accumulate"),  -- svg/generator.go:200
  (b%"additive", b%"Additive"),  -- svg/generator.go:201
  (b%"alignment-baseline", b%"AlignmentBaseline"),  -- svg/generator.go:202
  (b%"attributeName", b%"AttributeName"),  -- svg/generator.go:203
  (b%"attributeType", b%"AttributeType"),  -- svg/generator.go:204
  (b%"baseline-shift", b%"BaselineShift"),  -- svg/generator.go:205
  (b%"begin", b%"Begin"),  -- svg/generator.go:206
  (b%"by", b%"By"),  -- svg/generator.go:207
  (b%"calcMode", b%"CalcMode"),  -- svg/generator.go:208
  (b%"class", b%"Class"),  -- svg/generator.go:209
  (b%"clip", b%"Clip"),  -- svg/generator.go:210
  (b%"clip-path", b%"ClipPathAttr"),  -- svg/generator.go:211
  (b%"clip-rule", b%"ClipRule"),  -- svg/generator.go:212
  (b%"color", b%"Color"),  -- svg/generator.go:213
  (b%"color-interpolation", b%"ColorInterpolation"),  -- svg/generator.go:214
  (b%"color-interpolation-filters", b%"ColorInterpolationFilters"),  -- svg/generator.go:215
  (b%"color-profile", b%"ColorProfile"),  -- svg/generator.go:216
  (b%"color-rendering", b%"ColorRendering"),  -- svg/generator.go:217
  (b%"cursor", b%"Cursor"),  -- svg/generator.go:218
  (b%"cx", b%"Cx"),  -- svg/generator.go:219
  (b%"cy", b%"Cy"),  -- svg/generator.go:220
  (b%"d", b%"D"),  -- svg/generator.go:221
  (b%"direction", b%"Direction"),  -- svg/generator.go:222
  (b%"display", b%"Display"),  -- svg/generator.go:223
  (b%"dominant-baseline", b%"DominantBaseline"),  -- svg/generator.go:224
  (b%"dur", b%"Dur"),  -- svg/generator.go:225
  (b%"dx", b%"Dx"),  -- svg/generator.go:226
  (b%"dy", b%"Dy"),  -- svg/generator.go:227
  (b%"enable-background", b%"EnableBackground"),  -- svg/generator.go:228
  (b%"end", b%"End"),  -- svg/generator.go:229
  (b%"externalResourcesRequired", b%"ExternalResourcesRequired"),  -- svg/generator.go:230
  (b%"fill", b%"Fill"),  -- svg/generator.go:231
  (b%"fill-opacity", b%"FillOpacity"),  -- svg/generator.go:232
  (b%"fill-rule", b%"FillRule"),  -- svg/generator.go:233
  (b%"filter", b%"FilterAttr"),  -- svg/generator.go:234
  (b%"filterUnits", b%"FilterUnits"),  -- svg/generator.go:235
  (b%"flood-color", b%"FloodColor"),  -- svg/generator.go:236
  (b%"flood-opacity", b%"FloodOpacity"),  -- svg/generator.go:237
  (b%"font-family", b%"FontFamily"),  -- svg/generator.go:238
  (b%"font-size", b%"FontSize"),  -- svg/generator.go:239
  (b%"font-size-adjust", b%"FontSizeAdjust"),  -- svg/generator.go:240
  (b%"font-stretch", b%"FontStretch"),  -- svg/generator.go:241
  (b%"font-style", b%"FontStyle"),  -- svg/generator.go:242
  (b%"font-variant", b%"FontVariant"),  -- svg/generator.go:243
  (b%"font-weight", b%"FontWeight"),  -- svg/generator.go:244
  (b%"from", b%"From"),  -- svg/generator.go:245
  (b%"fx", b%"Fx"),  -- svg/generator.go:246
  (b%"fy", b%"Fy"),  -- svg/generator.go:247
  (b%"glyph-orientation-horizontal", b%"GlyphOrientationHorizontal"),  -- svg/generator.go:248
  (b%"glyph-orientation-vertical", b%"GlyphOrientationVertical"),  -- svg/generator.go:249
  (b%"gradientTransform", b%"GradientTransform"),  -- svg/generator.go:250
  (b%"gradientUnits", b%"GradientUnits"),  -- svg/generator.go:251
  (b%"height", b%"Height"),  -- svg/generator.go:252
  (b%"href", b%"Href"),  -- svg/generator.go:253
  (b%"id", b%"Id"),  -- svg/generator.go:254
  (b%"image-rendering", b%"ImageRendering"),  -- svg/generator.go:255
  (b%"kerning", b%"Kerning"),  -- svg/generator.go:256
  (b%"keyPoints", b%"KeyPoints"),  -- svg/generator.go:257
  (b%"keySplines", b%"KeySplines"),  -- svg/generator.go:258
  (b%"keyTimes", b%"KeyTimes"),  -- svg/generator.go:259
  (b%"lengthAdjust", b%"LengthAdjust"),  -- svg/generator.go:260
  (b%"letter-spacing", b%"LetterSpacing"),  -- svg/generator.go:261
  (b%"lighting-color", b%"LightingColor"),  -- svg/generator.go:262
  (b%"marker-end", b%"MarkerEnd"),  -- svg/generator.go:263
  (b%"marker-mid", b%"MarkerMid"),  -- svg/generator.go:264
  (b%"marker-start", b%"MarkerStart"),  -- svg/generator.go:265
  (b%"markerHeight", b%"MarkerHeight"),  -- svg/generator.go:266
  (b%"markerUnits", b%"MarkerUnits"),  -- svg/generator.go:267
  (b%"markerWidth", b%"MarkerWidth"),  -- svg/generator.go:268
  (b%"mask", b%"MaskAttr"),  -- svg/generator.go:269
  (b%"onblur", b%"OnBlur"),  -- svg/generator.go:270
  (b%"onclick", b%"OnClick"),  -- svg/generator.go:271
  (b%"onfocus", b%"OnFocus"),  -- svg/generator.go:272
  (b%"onload", b%"OnLoad"),  -- svg/generator.go:273
  (b%"onmousedown", b%"OnMouseDown"),  -- svg/generator.go:274
  (b%"onmousemove", b%"OnMouseMove"),  -- svg/generator.go:275
  (b%"onmouseout", b%"OnMouseOut"),  -- svg/generator.go:276
  (b%"onmouseover", b%"OnMouseOver"),  -- svg/generator.go:277
  (b%"onmouseup", b%"OnMouseUp"),  -- svg/generator.go:278
  (b%"onunload", b%"OnUnload"),  -- svg/generator.go:279
  (b%"opacity", b%"Opacity"),  -- svg/generator.go:280
  (b%"orient", b%"Orient"),  -- svg/generator.go:281
  (b%"path", b%"PathAttr"),  -- svg/generator.go:282
  (b%"pathLength", b%"PathLength"),  -- svg/generator.go:283
  (b%"patternContentUnits", b%"PatternContentUnits"),  -- svg/generator.go:284
  (b%"patternTransform", b%"PatternTransform"),  -- svg/generator.go:285
  (b%"patternUnits", b%"PatternUnits"),  -- svg/generator.go:286
  (b%"pointer-events", b%"PointerEvents"),  -- svg/generator.go:287
  (b%"points", b%"Points"),  -- svg/generator.go:288
  (b%"preserveAspectRatio", b%"PreserveAspectRatio"),  -- svg/generator.go:289
  (b%"primitiveUnits", b%"PrimitiveUnits"),  -- svg/generator.go:290
  (b%"r", b%"R"),  -- svg/generator.go:291
  (b%"refX", b%"RefX"),  -- svg/generator.go:292
  (b%"refY", b%"RefY"),  -- svg/generator.go:293
  (b%"repeatCount", b%"RepeatCount"),  -- svg/generator.go:294
  (b%"repeatDur", b%"RepeatDur"),  -- svg/generator.go:295
  (b%"requiredExtensions", b%"RequiredExtensions"),  -- svg/generator.go:296
  (b%"requiredFeatures", b%"RequiredFeatures"),  -- svg/generator.go:297
  (b%"rotate", b%"Rotate"),  -- svg/generator.go:298
  (b%"rx", b%"Rx"),  -- svg/generator.go:299
  (b%"ry", b%"Ry"),  -- svg/generator.go:300
  (b%"shape-rendering", b%"ShapeRendering"),  -- svg/generator.go:301
  (b%"spreadMethod", b%"SpreadMethod"),  -- svg/generator.go:302
  (b%"stop-color", b%"StopColor"),  -- svg/generator.go:303
  (b%"stop-opacity", b%"StopOpacity"),  -- svg/generator.go:304
  (b%"stroke", b%"Stroke"),  -- svg/generator.go:305
  (b%"stroke-dasharray", b%"StrokeDashArray"),  -- svg/generator.go:306
  (b%"stroke-dashoffset", b%"StrokeDashOffset"),  -- svg/generator.go:307
  (b%"stroke-linecap", b%"StrokeLineCap"),  -- svg/generator.go:308
  (b%"stroke-linejoin", b%"StrokeLineJoin"),  -- svg/generator.go:309
  (b%"stroke-miterlimit", b%"StrokeMiterLimit"),  -- svg/generator.go:310
  (b%"stroke-opacity", b%"StrokeOpacity"),  -- svg/generator.go:311
  (b%"stroke-width", b%"StrokeWidth"),  -- svg/generator.go:312
  (b%"style", b%"Style"),  -- svg/generator.go:313
  (b%"systemLanguage", b%"SystemLanguage"),  -- svg/generator.go:314
  (b%"tabindex", b%"TabIndex"),  -- svg/generator.go:315
  (b%"text-anchor", b%"TextAnchor"),  -- svg/generator.go:316
  (b%"text-decoration", b%"TextDecoration"),  -- svg/generator.go:317
  (b%"text-rendering", b%"TextRendering"),  -- svg/generator.go:318
  (b%"textLength", b%"TextLength"),  -- svg/generator.go:319
  (b%"to", b%"To"),  -- svg/generator.go:320
  (b%"type", b%"Type"),  -- svg/generator.go:321
  (b%"unicode-bidi", b%"UnicodeBidi"),  -- svg/generator.go:322
  (b%"values", b%"Values"),  -- svg/generator.go:323
  (b%"visibility", b%"Visibility"),  -- svg/generator.go:324
  (b%"width", b%"Width"),  -- svg/generator.go:325
  (b%"word-spacing", b%"WordSpacing"),  -- svg/generator.go:326
  (b%"writing-mode", b%"WritingMode"),  -- svg/generator.go:327
  (b%"x", b%"X"),  -- svg/generator.go:328
  (b%"x1", b%"X1"),  -- svg/generator.go:329
  (b%"x2", b%"X2"),  -- svg/generator.go:330
  (b%"xlink:actuate", b%"XlinkActuate"),  -- svg/generator.go:331
  (b%"xlink:arcrole", b%"XlinkArcrole"),  -- svg/generator.go:332
  (b%"xlink:href", b%"XlinkHref"),  -- svg/generator.go:333
  (b%"xlink:role", b%"XlinkRole"),  -- svg/generator.go:334
  (b%"xlink:show", b%"XlinkShow"),  -- svg/generator.go:335
  (b%"xlink:title", b%"XlinkTitle"),  -- svg/generator.go:336
  (b%"xml:base", b%"XmlBase"),  -- svg/generator.go:337
  (b%"xml:lang", b%"XmlLang"),  -- svg/generator.go:338
  (b%"xml:space", b%"XmlSpace"),  -- svg/generator.go:339
  (b%"y", b%"Y"),  -- svg/generator.go:340
  (b%"y1", b%"Y1"),  -- svg/generator.go:341
  (b%"y2", b%"Y2")  -- svg/generator.go:342
]

end Aitch
