import Verif.Model.Basic

/-!
The extended color keywords of CSS Color Module Level 3 (section 4.3), with their values as in the
specification: #RRGGBB.
-/

namespace Csspp.Spec

/-- Name, and value as 0xRRGGBB. -/
def cssColors : List (Str × Nat) := [
  (b!"aliceblue", 0xf0f8ff),
  (b!"antiquewhite", 0xfaebd7),
  (b!"aqua", 0x00ffff),
  (b!"aquamarine", 0x7fffd4),
  (b!"azure", 0xf0ffff),
  (b!"beige", 0xf5f5dc),
  (b!"bisque", 0xffe4c4),
  (b!"black", 0x000000),
  (b!"blanchedalmond", 0xffebcd),
  (b!"blue", 0x0000ff),
  (b!"blueviolet", 0x8a2be2),
  (b!"brown", 0xa52a2a),
  (b!"burlywood", 0xdeb887),
  (b!"cadetblue", 0x5f9ea0),
  (b!"chartreuse", 0x7fff00),
  (b!"chocolate", 0xd2691e),
  (b!"coral", 0xff7f50),
  (b!"cornflowerblue", 0x6495ed),
  (b!"cornsilk", 0xfff8dc),
  (b!"crimson", 0xdc143c),
  (b!"cyan", 0x00ffff),
  (b!"darkblue", 0x00008b),
  (b!"darkcyan", 0x008b8b),
  (b!"darkgoldenrod", 0xb8860b),
  (b!"darkgray", 0xa9a9a9),
  (b!"darkgreen", 0x006400),
  (b!"darkgrey", 0xa9a9a9),
  (b!"darkkhaki", 0xbdb76b),
  (b!"darkmagenta", 0x8b008b),
  (b!"darkolivegreen", 0x556b2f),
  (b!"darkorange", 0xff8c00),
  (b!"darkorchid", 0x9932cc),
  (b!"darkred", 0x8b0000),
  (b!"darksalmon", 0xe9967a),
  (b!"darkseagreen", 0x8fbc8f),
  (b!"darkslateblue", 0x483d8b),
  (b!"darkslategray", 0x2f4f4f),
  (b!"darkslategrey", 0x2f4f4f),
  (b!"darkturquoise", 0x00ced1),
  (b!"darkviolet", 0x9400d3),
  (b!"deeppink", 0xff1493),
  (b!"deepskyblue", 0x00bfff),
  (b!"dimgray", 0x696969),
  (b!"dimgrey", 0x696969),
  (b!"dodgerblue", 0x1e90ff),
  (b!"firebrick", 0xb22222),
  (b!"floralwhite", 0xfffaf0),
  (b!"forestgreen", 0x228b22),
  (b!"fuchsia", 0xff00ff),
  (b!"gainsboro", 0xdcdcdc),
  (b!"ghostwhite", 0xf8f8ff),
  (b!"gold", 0xffd700),
  (b!"goldenrod", 0xdaa520),
  (b!"gray", 0x808080),
  (b!"green", 0x008000),
  (b!"greenyellow", 0xadff2f),
  (b!"grey", 0x808080),
  (b!"honeydew", 0xf0fff0),
  (b!"hotpink", 0xff69b4),
  (b!"indianred", 0xcd5c5c),
  (b!"indigo", 0x4b0082),
  (b!"ivory", 0xfffff0),
  (b!"khaki", 0xf0e68c),
  (b!"lavender", 0xe6e6fa),
  (b!"lavenderblush", 0xfff0f5),
  (b!"lawngreen", 0x7cfc00),
  (b!"lemonchiffon", 0xfffacd),
  (b!"lightblue", 0xadd8e6),
  (b!"lightcoral", 0xf08080),
  (b!"lightcyan", 0xe0ffff),
  (b!"lightgoldenrodyellow", 0xfafad2),
  (b!"lightgray", 0xd3d3d3),
  (b!"lightgreen", 0x90ee90),
  (b!"lightgrey", 0xd3d3d3),
  (b!"lightpink", 0xffb6c1),
  (b!"lightsalmon", 0xffa07a),
  (b!"lightseagreen", 0x20b2aa),
  (b!"lightskyblue", 0x87cefa),
  (b!"lightslategray", 0x778899),
  (b!"lightslategrey", 0x778899),
  (b!"lightsteelblue", 0xb0c4de),
  (b!"lightyellow", 0xffffe0),
  (b!"lime", 0x00ff00),
  (b!"limegreen", 0x32cd32),
  (b!"linen", 0xfaf0e6),
  (b!"magenta", 0xff00ff),
  (b!"maroon", 0x800000),
  (b!"mediumaquamarine", 0x66cdaa),
  (b!"mediumblue", 0x0000cd),
  (b!"mediumorchid", 0xba55d3),
  (b!"mediumpurple", 0x9370db),
  (b!"mediumseagreen", 0x3cb371),
  (b!"mediumslateblue", 0x7b68ee),
  (b!"mediumspringgreen", 0x00fa9a),
  (b!"mediumturquoise", 0x48d1cc),
  (b!"mediumvioletred", 0xc71585),
  (b!"midnightblue", 0x191970),
  (b!"mintcream", 0xf5fffa),
  (b!"mistyrose", 0xffe4e1),
  (b!"moccasin", 0xffe4b5),
  (b!"navajowhite", 0xffdead),
  (b!"navy", 0x000080),
  (b!"oldlace", 0xfdf5e6),
  (b!"olive", 0x808000),
  (b!"olivedrab", 0x6b8e23),
  (b!"orange", 0xffa500),
  (b!"orangered", 0xff4500),
  (b!"orchid", 0xda70d6),
  (b!"palegoldenrod", 0xeee8aa),
  (b!"palegreen", 0x98fb98),
  (b!"paleturquoise", 0xafeeee),
  (b!"palevioletred", 0xdb7093),
  (b!"papayawhip", 0xffefd5),
  (b!"peachpuff", 0xffdab9),
  (b!"peru", 0xcd853f),
  (b!"pink", 0xffc0cb),
  (b!"plum", 0xdda0dd),
  (b!"powderblue", 0xb0e0e6),
  (b!"purple", 0x800080),
  (b!"red", 0xff0000),
  (b!"rosybrown", 0xbc8f8f),
  (b!"royalblue", 0x4169e1),
  (b!"saddlebrown", 0x8b4513),
  (b!"salmon", 0xfa8072),
  (b!"sandybrown", 0xf4a460),
  (b!"seagreen", 0x2e8b57),
  (b!"seashell", 0xfff5ee),
  (b!"sienna", 0xa0522d),
  (b!"silver", 0xc0c0c0),
  (b!"skyblue", 0x87ceeb),
  (b!"slateblue", 0x6a5acd),
  (b!"slategray", 0x708090),
  (b!"slategrey", 0x708090),
  (b!"snow", 0xfffafa),
  (b!"springgreen", 0x00ff7f),
  (b!"steelblue", 0x4682b4),
  (b!"tan", 0xd2b48c),
  (b!"teal", 0x008080),
  (b!"thistle", 0xd8bfd8),
  (b!"tomato", 0xff6347),
  (b!"turquoise", 0x40e0d0),
  (b!"violet", 0xee82ee),
  (b!"wheat", 0xf5deb3),
  (b!"white", 0xffffff),
  (b!"whitesmoke", 0xf5f5f5),
  (b!"yellow", 0xffff00),
  (b!"yellowgreen", 0x9acd32)]

end Csspp.Spec
