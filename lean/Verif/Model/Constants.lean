import Verif.Model.Library
/-
Generated from the source text: the exported string constants of css/constants.go and htmx/constants.go, by name.
-/
namespace Aitch

/-- css/constants.go:3-93 — the constants for values of properties. -/
def cssConstants : List (Bytes × Bytes) := [
  (b%"Important", b%" !important"),  -- css/constants.go:3
  (b%"DisplayBlock", b%"block"),  -- css/constants.go:6
  (b%"DisplayInline", b%"inline"),  -- css/constants.go:7
  (b%"DisplayInlineBlock", b%"inline-block"),  -- css/constants.go:8
  (b%"DisplayFlex", b%"flex"),  -- css/constants.go:9
  (b%"DisplayGrid", b%"grid"),  -- css/constants.go:10
  (b%"DisplayNone", b%"none"),  -- css/constants.go:11
  (b%"PositionStatic", b%"static"),  -- css/constants.go:15
  (b%"PositionRelative", b%"relative"),  -- css/constants.go:16
  (b%"PositionAbsolute", b%"absolute"),  -- css/constants.go:17
  (b%"PositionFixed", b%"fixed"),  -- css/constants.go:18
  (b%"PositionSticky", b%"sticky"),  -- css/constants.go:19
  (b%"TextLeft", b%"left"),  -- css/constants.go:23
  (b%"TextCenter", b%"center"),  -- css/constants.go:24
  (b%"TextRight", b%"right"),  -- css/constants.go:25
  (b%"TextJustify", b%"justify"),  -- css/constants.go:26
  (b%"BorderNone", b%"none"),  -- css/constants.go:30
  (b%"BorderSolid", b%"solid"),  -- css/constants.go:31
  (b%"BorderDashed", b%"dashed"),  -- css/constants.go:32
  (b%"BorderDotted", b%"dotted"),  -- css/constants.go:33
  (b%"BorderDouble", b%"double"),  -- css/constants.go:34
  (b%"BorderGroove", b%"groove"),  -- css/constants.go:35
  (b%"BorderRidge", b%"ridge"),  -- css/constants.go:36
  (b%"BorderInset", b%"inset"),  -- css/constants.go:37
  (b%"BorderOutset", b%"outset"),  -- css/constants.go:38
  (b%"FontWeightNormal", b%"normal"),  -- css/constants.go:42
  (b%"FontWeightBold", b%"bold"),  -- css/constants.go:43
  (b%"FontWeightLight", b%"lighter"),  -- css/constants.go:44
  (b%"FontWeightBolder", b%"bolder"),  -- css/constants.go:45
  (b%"JustifyStart", b%"flex-start"),  -- css/constants.go:49
  (b%"JustifyCenter", b%"center"),  -- css/constants.go:50
  (b%"JustifyEnd", b%"flex-end"),  -- css/constants.go:51
  (b%"JustifyBetween", b%"space-between"),  -- css/constants.go:52
  (b%"JustifyAround", b%"space-around"),  -- css/constants.go:53
  (b%"AlignStart", b%"start"),  -- css/constants.go:57
  (b%"AlignCenter", b%"center"),  -- css/constants.go:58
  (b%"AlignEnd", b%"end"),  -- css/constants.go:59
  (b%"AlignStretch", b%"stretch"),  -- css/constants.go:60
  (b%"AlignBaseline", b%"baseline"),  -- css/constants.go:61
  (b%"OverflowVisible", b%"visible"),  -- css/constants.go:65
  (b%"OverflowHidden", b%"hidden"),  -- css/constants.go:66
  (b%"OverflowScroll", b%"scroll"),  -- css/constants.go:67
  (b%"OverflowAuto", b%"auto"),  -- css/constants.go:68
  (b%"VisibilityVisible", b%"visible"),  -- css/constants.go:72
  (b%"VisibilityHidden", b%"hidden"),  -- css/constants.go:73
  (b%"VisibilityCollapse", b%"collapse"),  -- css/constants.go:74
  (b%"TextTransformNone", b%"none"),  -- css/constants.go:78
  (b%"TextTransformCapitalize", b%"capitalize"),  -- css/constants.go:79
  (b%"TextTransformUppercase", b%"uppercase"),  -- css/constants.go:80
  (b%"TextTransformLowercase", b%"lowercase"),  -- css/constants.go:81
  (b%"WhiteSpaceNormal", b%"normal"),  -- css/constants.go:85
  (b%"WhiteSpaceNowrap", b%"nowrap"),  -- css/constants.go:86
  (b%"WhiteSpacePre", b%"pre"),  -- css/constants.go:87
  (b%"WhiteSpacePreWrap", b%"pre-wrap"),  -- css/constants.go:88
  (b%"WhiteSpacePreLine", b%"pre-line")  -- css/constants.go:89
]

/-- htmx/constants.go:3-22 — the constants `Swap…`, without this prefix. -/
def htmxSwapConstants : List (Bytes × Bytes) := [
  (b%"OuterHTML", b%"outerHTML"),  -- htmx/constants.go:5
  (b%"InnerHTML", b%"innerHTML"),  -- htmx/constants.go:7
  (b%"TextContent", b%"textContent"),  -- htmx/constants.go:9
  (b%"None", b%"none"),  -- htmx/constants.go:11
  (b%"Delete", b%"delete"),  -- htmx/constants.go:13
  (b%"BeforeBegin", b%"beforebegin"),  -- htmx/constants.go:15
  (b%"AfterBegin", b%"afterbegin"),  -- htmx/constants.go:17
  (b%"BeforeEnd", b%"beforeend"),  -- htmx/constants.go:19
  (b%"AfterEnd", b%"afterend")  -- htmx/constants.go:21
]

/-- htmx/constants.go:24-39 — the constants `Trigger…`, without this prefix. -/
def htmxTriggerConstants : List (Bytes × Bytes) := [
  (b%"Click", b%"click"),  -- htmx/constants.go:26
  (b%"Change", b%"change"),  -- htmx/constants.go:28
  (b%"Submit", b%"submit"),  -- htmx/constants.go:30
  (b%"Load", b%"load"),  -- htmx/constants.go:32
  (b%"Every", b%"every"),  -- htmx/constants.go:34
  (b%"Revealed", b%"revealed"),  -- htmx/constants.go:36
  (b%"Intersect", b%"intersect")  -- htmx/constants.go:38
]

/-- htmx/constants.go:41-56 — the constants `Event…`, without this prefix. -/
def htmxEventConstants : List (Bytes × Bytes) := [
  (b%"BeforeRequest", b%"before-request"),  -- htmx/constants.go:43
  (b%"Send", b%"send"),  -- htmx/constants.go:45
  (b%"AfterRequest", b%"after-request"),  -- htmx/constants.go:47
  (b%"BeforeSwap", b%"before-swap"),  -- htmx/constants.go:49
  (b%"AfterSwap", b%"after-swap"),  -- htmx/constants.go:51
  (b%"ResponseError", b%"response-error"),  -- htmx/constants.go:53
  (b%"SendError", b%"send-error")  -- htmx/constants.go:55
]

/-- htmx/constants.go:58-73 — the constants `Sync…`, without this prefix. -/
def htmxSyncConstants : List (Bytes × Bytes) := [
  (b%"Abort", b%"abort"),  -- htmx/constants.go:60
  (b%"Drop", b%"drop"),  -- htmx/constants.go:62
  (b%"Replace", b%"replace"),  -- htmx/constants.go:64
  (b%"Queue", b%"queue"),  -- htmx/constants.go:66
  (b%"QueueFirst", b%"queue first"),  -- htmx/constants.go:68
  (b%"QueueLast", b%"queue last"),  -- htmx/constants.go:70
  (b%"QueueAll", b%"queue all")  -- htmx/constants.go:72
]

/-- htmx/constants.go:75-109 — the constants `Attr…`, without this prefix. -/
def htmxAttrConstants : List (Bytes × Bytes) := [
  (b%"Get", b%"hx-get"),  -- htmx/constants.go:76
  (b%"Post", b%"hx-post"),  -- htmx/constants.go:77
  (b%"Put", b%"hx-put"),  -- htmx/constants.go:78
  (b%"Delete", b%"hx-delete"),  -- htmx/constants.go:79
  (b%"Patch", b%"hx-patch"),  -- htmx/constants.go:80
  (b%"Target", b%"hx-target"),  -- htmx/constants.go:81
  (b%"Swap", b%"hx-swap"),  -- htmx/constants.go:82
  (b%"SwapOob", b%"hx-swap-oob"),  -- htmx/constants.go:83
  (b%"Trigger", b%"hx-trigger"),  -- htmx/constants.go:84
  (b%"Include", b%"hx-include"),  -- htmx/constants.go:85
  (b%"Select", b%"hx-select"),  -- htmx/constants.go:86
  (b%"Params", b%"hx-params"),  -- htmx/constants.go:87
  (b%"PushURL", b%"hx-push-url"),  -- htmx/constants.go:88
  (b%"ReplaceURL", b%"hx-replace-url"),  -- htmx/constants.go:89
  (b%"Confirm", b%"hx-confirm"),  -- htmx/constants.go:90
  (b%"Disable", b%"hx-disable"),  -- htmx/constants.go:91
  (b%"DisabledElt", b%"hx-disabled-elt"),  -- htmx/constants.go:92
  (b%"Boost", b%"hx-boost"),  -- htmx/constants.go:93
  (b%"Ext", b%"hx-ext"),  -- htmx/constants.go:94
  (b%"Encoding", b%"hx-encoding"),  -- htmx/constants.go:95
  (b%"HistoryElt", b%"hx-history-elt"),  -- htmx/constants.go:96
  (b%"Indicator", b%"hx-indicator"),  -- htmx/constants.go:97
  (b%"Request", b%"hx-request"),  -- htmx/constants.go:98
  (b%"On", b%"hx-on"),  -- htmx/constants.go:99
  (b%"Vals", b%"hx-vals"),  -- htmx/constants.go:100
  (b%"Vars", b%"hx-vars"),  -- htmx/constants.go:101
  (b%"Headers", b%"hx-headers"),  -- htmx/constants.go:102
  (b%"Inherit", b%"hx-inherit"),  -- htmx/constants.go:103
  (b%"Disinherit", b%"hx-disinherit"),  -- htmx/constants.go:104
  (b%"Preserve", b%"hx-preserve"),  -- htmx/constants.go:105
  (b%"Prompt", b%"hx-prompt"),  -- htmx/constants.go:106
  (b%"Sync", b%"hx-sync"),  -- htmx/constants.go:107
  (b%"Validate", b%"hx-validate")  -- htmx/constants.go:108
]

end Aitch
