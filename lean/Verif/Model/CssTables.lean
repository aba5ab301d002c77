import Verif.Model.Library
/-
Generated from the source text by matching each function against its one-line body; one row per function.
Package css: the property functions of css/properties.go and the unit functions of css/units.go.
-/
namespace Aitch

/-- css/properties.go — every property function and the name it passes to `styleAttribute`. -/
def cssProperties : List (Bytes × Bytes) := [
  (b%"Display", b%"display:"),  -- css/properties.go:6
  (b%"Position", b%"position:"),  -- css/properties.go:11
  (b%"Top", b%"top:"),  -- css/properties.go:16
  (b%"Right", b%"right:"),  -- css/properties.go:21
  (b%"Bottom", b%"bottom:"),  -- css/properties.go:26
  (b%"Left", b%"left:"),  -- css/properties.go:31
  (b%"ZIndex", b%"z-index:"),  -- css/properties.go:36
  (b%"Float", b%"float:"),  -- css/properties.go:41
  (b%"Clear", b%"clear:"),  -- css/properties.go:46
  (b%"Flex", b%"flex:"),  -- css/properties.go:51
  (b%"FlexGrow", b%"flex-grow:"),  -- css/properties.go:56
  (b%"FlexShrink", b%"flex-shrink:"),  -- css/properties.go:61
  (b%"FlexBasis", b%"flex-basis:"),  -- css/properties.go:66
  (b%"JustifyContent", b%"justify-content:"),  -- css/properties.go:71
  (b%"AlignItems", b%"align-items:"),  -- css/properties.go:76
  (b%"AlignContent", b%"align-content:"),  -- css/properties.go:81
  (b%"AlignSelf", b%"align-self:"),  -- css/properties.go:86
  (b%"Gap", b%"gap:"),  -- css/properties.go:91
  (b%"RowGap", b%"row-gap:"),  -- css/properties.go:96
  (b%"ColumnGap", b%"column-gap:"),  -- css/properties.go:101
  (b%"Width", b%"width:"),  -- css/properties.go:106
  (b%"Height", b%"height:"),  -- css/properties.go:111
  (b%"MinWidth", b%"min-width:"),  -- css/properties.go:116
  (b%"MaxWidth", b%"max-width:"),  -- css/properties.go:121
  (b%"MinHeight", b%"min-height:"),  -- css/properties.go:126
  (b%"MaxHeight", b%"max-height:"),  -- css/properties.go:131
  (b%"Margin", b%"margin:"),  -- css/properties.go:136
  (b%"MarginTop", b%"margin-top:"),  -- css/properties.go:141
  (b%"MarginRight", b%"margin-right:"),  -- css/properties.go:146
  (b%"MarginBottom", b%"margin-bottom:"),  -- css/properties.go:151
  (b%"MarginLeft", b%"margin-left:"),  -- css/properties.go:156
  (b%"Padding", b%"padding:"),  -- css/properties.go:161
  (b%"PaddingTop", b%"padding-top:"),  -- css/properties.go:166
  (b%"PaddingRight", b%"padding-right:"),  -- css/properties.go:171
  (b%"PaddingBottom", b%"padding-bottom:"),  -- css/properties.go:176
  (b%"PaddingLeft", b%"padding-left:"),  -- css/properties.go:181
  (b%"Border", b%"border:"),  -- css/properties.go:186
  (b%"BorderWidth", b%"border-width:"),  -- css/properties.go:191
  (b%"BorderColor", b%"border-color:"),  -- css/properties.go:196
  (b%"BorderStyle", b%"border-style:"),  -- css/properties.go:201
  (b%"BorderRadius", b%"border-radius:"),  -- css/properties.go:206
  (b%"BorderTop", b%"border-top:"),  -- css/properties.go:211
  (b%"BorderBottom", b%"border-bottom:"),  -- css/properties.go:216
  (b%"BorderLeft", b%"border-left:"),  -- css/properties.go:221
  (b%"BorderRight", b%"border-right:"),  -- css/properties.go:226
  (b%"Background", b%"background:"),  -- css/properties.go:231
  (b%"BackgroundColor", b%"background-color:"),  -- css/properties.go:236
  (b%"BackgroundImage", b%"background-image:"),  -- css/properties.go:241
  (b%"BackgroundSize", b%"background-size:"),  -- css/properties.go:246
  (b%"BackgroundPosition", b%"background-position:"),  -- css/properties.go:251
  (b%"BackgroundRepeat", b%"background-repeat:"),  -- css/properties.go:256
  (b%"Color", b%"color:"),  -- css/properties.go:261
  (b%"FontSize", b%"font-size:"),  -- css/properties.go:266
  (b%"FontWeight", b%"font-weight:"),  -- css/properties.go:271
  (b%"FontFamily", b%"font-family:"),  -- css/properties.go:276
  (b%"LineHeight", b%"line-height:"),  -- css/properties.go:281
  (b%"LetterSpacing", b%"letter-spacing:"),  -- css/properties.go:286
  (b%"TextAlign", b%"text-align:"),  -- css/properties.go:291
  (b%"TextTransform", b%"text-transform:"),  -- css/properties.go:296
  (b%"TextDecoration", b%"text-decoration:"),  -- css/properties.go:301
  (b%"WhiteSpace", b%"white-space:"),  -- css/properties.go:306
  (b%"WordBreak", b%"word-break:"),  -- css/properties.go:311
  (b%"Opacity", b%"opacity:"),  -- css/properties.go:316
  (b%"BoxShadow", b%"box-shadow:"),  -- css/properties.go:321
  (b%"Visibility", b%"visibility:"),  -- css/properties.go:326
  (b%"Overflow", b%"overflow:"),  -- css/properties.go:331
  (b%"OverflowX", b%"overflow-x:"),  -- css/properties.go:336
  (b%"OverflowY", b%"overflow-y:"),  -- css/properties.go:341
  (b%"Cursor", b%"cursor:"),  -- css/properties.go:346
  (b%"Transition", b%"transition:"),  -- css/properties.go:351
  (b%"TransitionDuration", b%"transition-duration:"),  -- css/properties.go:356
  (b%"TransitionTimingFunction", b%"transition-timing-function:"),  -- css/properties.go:361
  (b%"Transform", b%"transform:"),  -- css/properties.go:366
  (b%"Animation", b%"animation:"),  -- css/properties.go:371
  (b%"UserSelect", b%"user-select:"),  -- css/properties.go:376
  (b%"PointerEvents", b%"pointer-events:"),  -- css/properties.go:381
  (b%"Isolation", b%"isolation:"),  -- css/properties.go:386
  (b%"ObjectFit", b%"object-fit:"),  -- css/properties.go:391
  (b%"ObjectPosition", b%"object-position:"),  -- css/properties.go:396
  (b%"BoxSizing", b%"box-sizing:"),  -- css/properties.go:401
  (b%"AspectRatio", b%"aspect-ratio:"),  -- css/properties.go:406
  (b%"Contain", b%"contain:"),  -- css/properties.go:411
  (b%"ContentVisibility", b%"content-visibility:"),  -- css/properties.go:416
  (b%"Resize", b%"resize:"),  -- css/properties.go:421
  (b%"GridTemplateColumns", b%"grid-template-columns:"),  -- css/properties.go:426
  (b%"GridTemplateRows", b%"grid-template-rows:"),  -- css/properties.go:431
  (b%"GridColumn", b%"grid-column:"),  -- css/properties.go:436
  (b%"GridRow", b%"grid-row:"),  -- css/properties.go:441
  (b%"GridArea", b%"grid-area:"),  -- css/properties.go:446
  (b%"GridAutoFlow", b%"grid-auto-flow:"),  -- css/properties.go:451
  (b%"PlaceItems", b%"place-items:"),  -- css/properties.go:456
  (b%"PlaceContent", b%"place-content:"),  -- css/properties.go:461
  (b%"PlaceSelf", b%"place-self:"),  -- css/properties.go:466
  (b%"FontStyle", b%"font-style:"),  -- css/properties.go:471
  (b%"FontVariant", b%"font-variant:"),  -- css/properties.go:476
  (b%"FontStretch", b%"font-stretch:"),  -- css/properties.go:481
  (b%"Direction", b%"direction:"),  -- css/properties.go:486
  (b%"TabSize", b%"tab-size:"),  -- css/properties.go:491
  (b%"ListStyle", b%"list-style:"),  -- css/properties.go:496
  (b%"ListStyleType", b%"list-style-type:"),  -- css/properties.go:501
  (b%"ListStylePosition", b%"list-style-position:"),  -- css/properties.go:506
  (b%"ListStyleImage", b%"list-style-image:"),  -- css/properties.go:511
  (b%"BorderCollapse", b%"border-collapse:"),  -- css/properties.go:516
  (b%"BorderSpacing", b%"border-spacing:"),  -- css/properties.go:521
  (b%"TableLayout", b%"table-layout:"),  -- css/properties.go:526
  (b%"EmptyCells", b%"empty-cells:"),  -- css/properties.go:531
  (b%"Filter", b%"filter:"),  -- css/properties.go:536
  (b%"BackdropFilter", b%"backdrop-filter:"),  -- css/properties.go:541
  (b%"MixBlendMode", b%"mix-blend-mode:"),  -- css/properties.go:546
  (b%"BoxDecorationBreak", b%"box-decoration-break:"),  -- css/properties.go:551
  (b%"ScrollBehavior", b%"scroll-behavior:"),  -- css/properties.go:556
  (b%"ScrollSnapType", b%"scroll-snap-type:"),  -- css/properties.go:561
  (b%"ScrollSnapAlign", b%"scroll-snap-align:"),  -- css/properties.go:566
  (b%"ScrollMargin", b%"scroll-margin:"),  -- css/properties.go:571
  (b%"ScrollPadding", b%"scroll-padding:"),  -- css/properties.go:576
  (b%"AnimationName", b%"animation-name:"),  -- css/properties.go:581
  (b%"AnimationDuration", b%"animation-duration:"),  -- css/properties.go:586
  (b%"AnimationTimingFunction", b%"animation-timing-function:"),  -- css/properties.go:591
  (b%"AnimationDelay", b%"animation-delay:"),  -- css/properties.go:596
  (b%"AnimationIterationCount", b%"animation-iteration-count:"),  -- css/properties.go:601
  (b%"AnimationDirection", b%"animation-direction:"),  -- css/properties.go:606
  (b%"AnimationFillMode", b%"animation-fill-mode:"),  -- css/properties.go:611
  (b%"AnimationPlayState", b%"animation-play-state:"),  -- css/properties.go:616
  (b%"TransitionProperty", b%"transition-property:"),  -- css/properties.go:621
  (b%"TransitionDelay", b%"transition-delay:"),  -- css/properties.go:626
  (b%"TouchAction", b%"touch-action:"),  -- css/properties.go:631
  (b%"WillChange", b%"will-change:"),  -- css/properties.go:636
  (b%"CaretColor", b%"caret-color:"),  -- css/properties.go:641
  (b%"ScrollSnapStop", b%"scroll-snap-stop:"),  -- css/properties.go:646
  (b%"Speak", b%"speak:"),  -- css/properties.go:651
  (b%"PageBreakBefore", b%"page-break-before:"),  -- css/properties.go:656
  (b%"PageBreakAfter", b%"page-break-after:"),  -- css/properties.go:661
  (b%"PageBreakInside", b%"page-break-inside:")  -- css/properties.go:666
]

/-- css/units.go — every unit function and its unit. -/
def cssUnits : List (Bytes × Bytes) := [
  (b%"Px", b%"px"),  -- css/units.go:24
  (b%"Pt", b%"pt"),  -- css/units.go:29
  (b%"Pc", b%"pc"),  -- css/units.go:34
  (b%"In", b%"in"),  -- css/units.go:39
  (b%"Cm", b%"cm"),  -- css/units.go:44
  (b%"Mm", b%"mm"),  -- css/units.go:49
  (b%"Em", b%"em"),  -- css/units.go:54
  (b%"Rem", b%"rem"),  -- css/units.go:59
  (b%"Percent", b%"%"),  -- css/units.go:64
  (b%"Vw", b%"vw"),  -- css/units.go:69
  (b%"Vh", b%"vh"),  -- css/units.go:74
  (b%"VMin", b%"vmin"),  -- css/units.go:79
  (b%"VMax", b%"vmax"),  -- css/units.go:84
  (b%"Ch", b%"ch"),  -- css/units.go:89
  (b%"Ex", b%"ex")  -- css/units.go:94
]

end Aitch
