import Verif.Model.Library
/-
Generated from the source text by matching each function against its one-line body; one row per function.
Package htmx/attributes.go: all attribute functions but `On`, `Headers` and `HeadersJS` (see Htmx.lean and Library.lean).
-/
namespace Aitch

/-- htmx/attributes.go — the attribute functions. -/
def htmxAttributes : List AttrFn := [
  ⟨b%"Get", b%"hx-get", .plain⟩,  -- htmx/attributes.go:12
  ⟨b%"Post", b%"hx-post", .plain⟩,  -- htmx/attributes.go:19
  ⟨b%"Put", b%"hx-put", .plain⟩,  -- htmx/attributes.go:26
  ⟨b%"Delete", b%"hx-delete", .plain⟩,  -- htmx/attributes.go:33
  ⟨b%"Patch", b%"hx-patch", .plain⟩,  -- htmx/attributes.go:40
  ⟨b%"Target", b%"hx-target", .plain⟩,  -- htmx/attributes.go:47
  ⟨b%"Swap", b%"hx-swap", .plain⟩,  -- htmx/attributes.go:54
  ⟨b%"SwapOob", b%"hx-swap-oob", .plain⟩,  -- htmx/attributes.go:61
  ⟨b%"Trigger", b%"hx-trigger", .delim b%" "⟩,  -- htmx/attributes.go:70
  ⟨b%"Include", b%"hx-include", .plain⟩,  -- htmx/attributes.go:77
  ⟨b%"Select", b%"hx-select", .plain⟩,  -- htmx/attributes.go:84
  ⟨b%"Params", b%"hx-params", .delim b%" "⟩,  -- htmx/attributes.go:93
  ⟨b%"PushURL", b%"hx-push-url", .plain⟩,  -- htmx/attributes.go:100
  ⟨b%"ReplaceURL", b%"hx-replace-url", .plain⟩,  -- htmx/attributes.go:107
  ⟨b%"OnBeforeRequest", b%"hx-on:before-request", .plain⟩,  -- htmx/attributes.go:123
  ⟨b%"OnSend", b%"hx-on:send", .plain⟩,  -- htmx/attributes.go:130
  ⟨b%"OnAfterRequest", b%"hx-on:after-request", .plain⟩,  -- htmx/attributes.go:137
  ⟨b%"OnBeforeSwap", b%"hx-on:before-swap", .plain⟩,  -- htmx/attributes.go:144
  ⟨b%"OnAfterSwap", b%"hx-on:after-swap", .plain⟩,  -- htmx/attributes.go:151
  ⟨b%"OnResponseError", b%"hx-on:response-error", .plain⟩,  -- htmx/attributes.go:158
  ⟨b%"OnSendError", b%"hx-on:send-error", .plain⟩,  -- htmx/attributes.go:165
  ⟨b%"Confirm", b%"hx-confirm", .plain⟩,  -- htmx/attributes.go:172
  ⟨b%"Disable", b%"hx-disable", .plain⟩,  -- htmx/attributes.go:179
  ⟨b%"DisabledElt", b%"hx-disabled-elt", .plain⟩,  -- htmx/attributes.go:186
  ⟨b%"Boost", b%"hx-boost", .plain⟩,  -- htmx/attributes.go:193
  ⟨b%"Ext", b%"hx-ext", .plain⟩,  -- htmx/attributes.go:200
  ⟨b%"Encoding", b%"hx-encoding", .plain⟩,  -- htmx/attributes.go:207
  ⟨b%"HistoryElt", b%"hx-history-elt", .plain⟩,  -- htmx/attributes.go:214
  ⟨b%"Indicator", b%"hx-indicator", .plain⟩,  -- htmx/attributes.go:221
  ⟨b%"Request", b%"hx-request", .plain⟩,  -- htmx/attributes.go:228
  ⟨b%"Vals", b%"hx-vals", .plain⟩,  -- htmx/attributes.go:236
  ⟨b%"Vars", b%"hx-vars", .delim b%", "⟩,  -- htmx/attributes.go:245
  ⟨b%"Inherit", b%"hx-inherit", .delim b%" "⟩,  -- htmx/attributes.go:340
  ⟨b%"Disinherit", b%"hx-disinherit", .delim b%" "⟩,  -- htmx/attributes.go:349
  ⟨b%"Sync", b%"hx-sync", .plain⟩,  -- htmx/attributes.go:356
  ⟨b%"Preserve", b%"hx-preserve", .plain⟩,  -- htmx/attributes.go:363
  ⟨b%"Prompt", b%"hx-prompt", .plain⟩,  -- htmx/attributes.go:371
  ⟨b%"Validate", b%"hx-validate", .plain⟩  -- htmx/attributes.go:379
]

end Aitch
