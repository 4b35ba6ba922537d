import Verif.Model.Scripts

/-!
What the validation scripts have to accept, as lists of names, and the error for another name.
-/

namespace Csspp.Spec

/-- A list of names, the variable that is checked and the text that follows a name that is refused. -/
structure Allowed where
  var : Str
  names : List Str
  refused : Str

def pseudoClasses : Allowed where
  var := b!"pseudo_name"
  names := [
    b!"active", b!"checked", b!"disabled", b!"empty", b!"enabled", b!"first-child", b!"first-of-type", b!"focus",
    b!"hover", b!"invalid", b!"last-child", b!"last-of-type", b!"link", b!"only-child", b!"only-of-type",
    b!"required", b!"root", b!"target", b!"valid", b!"visited"]
  refused := b!" is not a valid name for a pseudo class; CSS only supports root, first-child, last-child, first-of-type, last-of-type, only-child, only-of-type, empty, link, visitived, active, hover, focus, target, enabled, disabled, and checked. (functions are not included in this list since you did not use '(' at the end of the word.)"

def pseudoElements : Allowed where
  var := b!"pseudo_name"
  names := [
    b!"after", b!"before", b!"first-letter", b!"first-line", b!"grammar-error", b!"marker", b!"placeholder",
    b!"selection", b!"spelling-error", b!"-webkit-input-placeholder", b!"-webkit-inner-spin-button",
    b!"-webkit-outer-spin-button", b!"-webkit-search-cancel-button", b!"-webkit-search-decoration",
    b!"-moz-placeholder", b!"-moz-focus-inner", b!"-moz-selection", b!"-ms-input-placeholder", b!"-ms-expand"]
  refused := b!" is not a valid name for a pseudo element; CSS only supports after, before, first-letter, first-line, grammar-error, marker, placeholder, selection, and spelling-error."

def pseudoFunctions : Allowed where
  var := b!"pseudo_name"
  names := [
    b!"lang", b!"not"]
  refused := b!" is not a valid name for a pseudo function; CSS only supports lang() and not()."

def pseudoNthFunctions : Allowed where
  var := b!"pseudo_name"
  names := [
    b!"nth-child", b!"nth-last-child", b!"nth-of-type", b!"nth-last-of-type"]
  refused := b!" is not a valid name for a pseudo nth-function; CSS only supports nth-child(), nth-last-child(), nth-of-type(), nth-of-last-type()."

def hasFontMetrics : Allowed where
  var := b!"field_name"
  names := [
    b!"font"]
  refused := b!" never includes a font metric parameter."

def slashSeparator : Allowed where
  var := b!"field_name"
  names := [
    b!"border-radius"]
  refused := b!" never includes a slash (/) as a separator."

def languages : Allowed where
  var := b!"language_name"
  names := [
    b!"aa", b!"ab", b!"af", b!"am", b!"ar", b!"as", b!"ay", b!"az", b!"ba", b!"be", b!"bg", b!"bh", b!"bi",
    b!"bn", b!"bo", b!"br", b!"ca", b!"co", b!"cs", b!"cy", b!"da", b!"de", b!"dz", b!"el", b!"en", b!"eo",
    b!"es", b!"et", b!"eu", b!"fa", b!"fi", b!"fj", b!"fo", b!"fr", b!"fy", b!"ga", b!"gd", b!"gl", b!"gn",
    b!"gu", b!"ha", b!"he", b!"hi", b!"hr", b!"hu", b!"hy", b!"ia", b!"id", b!"ie", b!"ik", b!"is", b!"it",
    b!"ja", b!"jv", b!"ka", b!"kk", b!"kl", b!"km", b!"kn", b!"ko", b!"ks", b!"ku", b!"ky", b!"la", b!"ln",
    b!"lo", b!"lt", b!"lv", b!"mg", b!"mi", b!"mk", b!"ml", b!"mn", b!"mo", b!"mr", b!"ms", b!"mt", b!"my",
    b!"na", b!"ne", b!"nl", b!"no", b!"oc", b!"om", b!"or", b!"pa", b!"pl", b!"ps", b!"pt", b!"qu", b!"rm",
    b!"rn", b!"ro", b!"ru", b!"rw", b!"sa", b!"sd", b!"sg", b!"sh", b!"si", b!"sk", b!"sl", b!"sm", b!"sn",
    b!"so", b!"sq", b!"sr", b!"ss", b!"st", b!"su", b!"sv", b!"sw", b!"ta", b!"te", b!"tg", b!"th", b!"ti",
    b!"tk", b!"tl", b!"tn", b!"to", b!"tr", b!"ts", b!"tt", b!"tw", b!"uk", b!"ur", b!"uz", b!"vi", b!"vo",
    b!"wo", b!"xh", b!"yi", b!"yo", b!"zh", b!"zu"]
  refused := b!" is not a valid language name for :lang()."

def countries : Allowed where
  var := b!"country_name"
  names := [
    b!"ad", b!"ae", b!"af", b!"ag", b!"ai", b!"al", b!"am", b!"ao", b!"aq", b!"ar", b!"as", b!"at", b!"au",
    b!"aw", b!"ax", b!"az", b!"ba", b!"bb", b!"bd", b!"be", b!"bf", b!"bg", b!"bh", b!"bi", b!"bj", b!"bl",
    b!"bm", b!"bn", b!"bo", b!"bq", b!"br", b!"bs", b!"bt", b!"bv", b!"bw", b!"by", b!"bz", b!"ca", b!"cc",
    b!"cd", b!"cf", b!"cg", b!"ch", b!"ci", b!"ck", b!"cl", b!"cm", b!"cn", b!"co", b!"cr", b!"cu", b!"cv",
    b!"cw", b!"cx", b!"cy", b!"cz", b!"de", b!"dj", b!"dk", b!"dm", b!"do", b!"dz", b!"ec", b!"ee", b!"eg",
    b!"eh", b!"er", b!"es", b!"et", b!"fi", b!"fj", b!"fk", b!"fm", b!"fo", b!"fr", b!"ga", b!"gb", b!"gd",
    b!"ge", b!"gf", b!"gg", b!"gh", b!"gi", b!"gl", b!"gm", b!"gn", b!"gp", b!"gq", b!"gr", b!"gs", b!"gt",
    b!"gu", b!"gw", b!"gy", b!"hk", b!"hm", b!"hn", b!"hr", b!"ht", b!"hu", b!"id", b!"ie", b!"il", b!"im",
    b!"in", b!"io", b!"iq", b!"ir", b!"is", b!"it", b!"je", b!"jm", b!"jo", b!"jp", b!"ke", b!"kg", b!"kh",
    b!"ki", b!"km", b!"kn", b!"kp", b!"kr", b!"kw", b!"ky", b!"kz", b!"la", b!"lb", b!"lc", b!"li", b!"lk",
    b!"lr", b!"ls", b!"lt", b!"lu", b!"lv", b!"ly", b!"ma", b!"mc", b!"md", b!"me", b!"mf", b!"mg", b!"mh",
    b!"mk", b!"ml", b!"mm", b!"mn", b!"mo", b!"mp", b!"mq", b!"mr", b!"ms", b!"mt", b!"mu", b!"mv", b!"mw",
    b!"mx", b!"my", b!"mz", b!"na", b!"nc", b!"ne", b!"nf", b!"ng", b!"ni", b!"nl", b!"no", b!"np", b!"nr",
    b!"nu", b!"nz", b!"om", b!"pa", b!"pe", b!"pf", b!"pg", b!"ph", b!"pk", b!"pl", b!"pm", b!"pn", b!"pr",
    b!"ps", b!"pt", b!"pw", b!"py", b!"qa", b!"re", b!"ro", b!"rs", b!"ru", b!"rw", b!"sa", b!"sb", b!"sc",
    b!"sd", b!"se", b!"sg", b!"sh", b!"si", b!"sj", b!"sk", b!"sl", b!"sm", b!"sn", b!"so", b!"sr", b!"ss",
    b!"st", b!"sv", b!"sx", b!"sy", b!"sz", b!"tc", b!"td", b!"tf", b!"tg", b!"th", b!"tj", b!"tk", b!"tla",
    b!"tm", b!"tn", b!"to", b!"tr", b!"tt", b!"tv", b!"tw", b!"tz", b!"ua", b!"ug", b!"um", b!"us", b!"uy",
    b!"uz", b!"va", b!"vc", b!"ve", b!"vg", b!"vi", b!"vn", b!"vu", b!"wf", b!"ws", b!"ye", b!"yt", b!"za",
    b!"zm", b!"zw"]
  refused := b!" is not a valid country name for :lang()."

/-- The scripts and what they have to accept. -/
inductive Checks : Str → Allowed → Prop where
  | pseudoClasses : Checks Scripts.pseudoClasses pseudoClasses
  | pseudoElements : Checks Scripts.pseudoElements pseudoElements
  | pseudoFunctions : Checks Scripts.pseudoFunctions pseudoFunctions
  | pseudoNthFunctions : Checks Scripts.pseudoNthFunctions pseudoNthFunctions
  | hasFontMetrics : Checks Scripts.hasFontMetrics hasFontMetrics
  | slashSeparator : Checks Scripts.slashSeparator slashSeparator
  | languages : Checks Scripts.languages languages
  | countries : Checks Scripts.countries countries

end Csspp.Spec
