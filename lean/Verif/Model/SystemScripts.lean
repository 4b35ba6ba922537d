import Verif.Model.Scripts

/-!
The scripts of /repo/scripts/system that init.scss and close.scss use: the contents of the files, byte for byte, and
version.scss.in once CMake has replaced the numbers of the version (1.0.33, debian/changelog). Generated.
-/

namespace Csspp.Scripts

/-- scripts/system/init.scss:1-28 -/
def initText0 : Str := file [
  b!"// CSS Preprocessor",
  b!"// Copyright (c) 2015-2025  Made to Order Software Corp.  All Rights Reserved",
  b!"//",
  b!"// This program is free software; you can redistribute it and/or modify",
  b!"// it under the terms of the GNU General Public License as published by",
  b!"// the Free Software Foundation; either version 2 of the License, or",
  b!"// (at your option) any later version.",
  b!"//",
  b!"// This program is distributed in the hope that it will be useful,",
  b!"// but WITHOUT ANY WARRANTY; without even the implied warranty of",
  b!"// MERCHANTABILITY or FITNESS FOR A PARTICULAR PURPOSE.  See the",
  b!"// GNU General Public License for more details.",
  b!"//",
  b!"// You should have received a copy of the GNU General Public License",
  b!"// along with this program; if not, write to the Free Software",
  b!"// Foundation, Inc., 51 Franklin St, Fifth Floor, Boston, MA  02110-1301  USA",
  b!"",
  b!"@import \"system/version.scss\";",
  b!"@import \"system/constants.scss\";",
  b!"@import \"system/functions.scss\";",
  b!"",
  b!"// Local Variables:",
  b!"// mode: scss",
  b!"// indent-tabs-mode: nil",
  b!"// tab-width: 4",
  b!"// End:",
  b!"",
  b!"// vim: ts=4 sw=4 et"]

/-- scripts/system/init.scss:1-28 -/
def initText : Str := initText0

/-- scripts/system/close.scss:1-29 -/
def closeText0 : Str := file [
  b!"// CSS Preprocessor",
  b!"// Copyright (c) 2015-2025  Made to Order Software Corp.  All Rights Reserved",
  b!"//",
  b!"// This program is free software; you can redistribute it and/or modify",
  b!"// it under the terms of the GNU General Public License as published by",
  b!"// the Free Software Foundation; either version 2 of the License, or",
  b!"// (at your option) any later version.",
  b!"//",
  b!"// This program is distributed in the hope that it will be useful,",
  b!"// but WITHOUT ANY WARRANTY; without even the implied warranty of",
  b!"// MERCHANTABILITY or FITNESS FOR A PARTICULAR PURPOSE.  See the",
  b!"// GNU General Public License for more details.",
  b!"//",
  b!"// You should have received a copy of the GNU General Public License",
  b!"// along with this program; if not, write to the Free Software",
  b!"// Foundation, Inc., 51 Franklin St, Fifth Floor, Boston, MA  02110-1301  USA",
  b!"",
  b!"@if not($_csspp_no_logo)",
  b!"{",
  b!"    @import \"system/logo.scss\";",
  b!"}",
  b!"",
  b!"// Local Variables:",
  b!"// mode: scss",
  b!"// indent-tabs-mode: nil",
  b!"// tab-width: 4",
  b!"// End:",
  b!"",
  b!"// vim: ts=4 sw=4 et"]

/-- scripts/system/close.scss:1-29 -/
def closeText : Str := closeText0

/-- scripts/system/logo.scss:1-29 -/
def logoText0 : Str := file [
  b!"// CSS Preprocessor",
  b!"// Copyright (c) 2015-2025  Made to Order Software Corp.  All Rights Reserved",
  b!"//",
  b!"// This program is free software; you can redistribute it and/or modify",
  b!"// it under the terms of the GNU General Public License as published by",
  b!"// the Free Software Foundation; either version 2 of the License, or",
  b!"// (at your option) any later version.",
  b!"//",
  b!"// This program is distributed in the hope that it will be useful,",
  b!"// but WITHOUT ANY WARRANTY; without even the implied warranty of",
  b!"// MERCHANTABILITY or FITNESS FOR A PARTICULAR PURPOSE.  See the",
  b!"// GNU General Public License for more details.",
  b!"//",
  b!"// You should have received a copy of the GNU General Public License",
  b!"// along with this program; if not, write to the Free Software",
  b!"// Foundation, Inc., 51 Franklin St, Fifth Floor, Boston, MA  02110-1301  USA",
  b!"",
  b!"// This file is included unless you called the compiler set_no_logo() function",
  b!"// with 'true'; this is how the --no-logo option works.",
  b!"",
  b!"/* @preserve -- CSS file parsed by http://csspp.org/ v{$_csspp_version} on {$_csspp_usdate} */",
  b!"",
  b!"// Local Variables:",
  b!"// mode: scss",
  b!"// indent-tabs-mode: nil",
  b!"// tab-width: 4",
  b!"// End:",
  b!"",
  b!"// vim: ts=4 sw=4 et"]

/-- scripts/system/logo.scss:1-29 -/
def logoText : Str := logoText0

/-- scripts/system/constants.scss:1-40 -/
def constantsText0 : Str := file [
  b!"// CSS Preprocessor",
  b!"// Copyright (c) 2015-2025  Made to Order Software Corp.  All Rights Reserved",
  b!"//",
  b!"// This program is free software; you can redistribute it and/or modify",
  b!"// it under the terms of the GNU General Public License as published by",
  b!"// the Free Software Foundation; either version 2 of the License, or",
  b!"// (at your option) any later version.",
  b!"//",
  b!"// This program is distributed in the hope that it will be useful,",
  b!"// but WITHOUT ANY WARRANTY; without even the implied warranty of",
  b!"// MERCHANTABILITY or FITNESS FOR A PARTICULAR PURPOSE.  See the",
  b!"// GNU General Public License for more details.",
  b!"//",
  b!"// You should have received a copy of the GNU General Public License",
  b!"// along with this program; if not, write to the Free Software",
  b!"// Foundation, Inc., 51 Franklin St, Fifth Floor, Boston, MA  02110-1301  USA",
  b!"",
  b!"// TODO: once supported, add the !important flag so these constants cannot be overwritten",
  b!"",
  b!"$_csspp_e:      2.7182818284590452354;      // e",
  b!"$_csspp_log2e:  1.4426950408889634074;      // log_2(e)",
  b!"$_csspp_log10e: 0.43429448190325182765;     // log_10(e)",
  b!"$_csspp_ln2e:   0.69314718055994530942;     // log_e(2)",
  b!"$_csspp_ln10e:  2.30258509299404568402;     // log_e(10)",
  b!"$_csspp_pi:     3.14159265358979323846;     // pi",
  b!"$_csspp_pi_rad: 3.14159265358979323846rad;  // pi as an angle",
  b!"$_csspp_sqrt2:  1.41421356237309504880;     // sqrt(2)",
  b!"",
  b!"// The csspp command line tool also adds the following variables:",
  b!"//     $_csspp_usdate = \"MM/DD/YYYY\";",
  b!"//     $_csspp_month  = \"MM\";",
  b!"//     $_csspp_day    = \"DD\";",
  b!"//     $_csspp_year   = \"YYYY\";",
  b!"//     $_csspp_time   = \"HH:MM:SS\";",
  b!"//     $_csspp_hour   = \"HH\";",
  b!"//     $_csspp_minute = \"MM\";",
  b!"//     $_csspp_second = \"SS\";",
  b!"",
  b!"// Local Variables:",
  b!"// mode: scss"]

/-- scripts/system/constants.scss:41-45 -/
def constantsText1 : Str := file [
  b!"// indent-tabs-mode: nil",
  b!"// tab-width: 4",
  b!"// End:",
  b!"",
  b!"// vim: ts=4 sw=4 et"]

/-- scripts/system/constants.scss:1-45 -/
def constantsText : Str := constantsText0 ++ (constantsText1)

/-- scripts/system/functions.scss:1-40 -/
def functionsText0 : Str := file [
  b!"// CSS Preprocessor",
  b!"// Copyright (c) 2015-2025  Made to Order Software Corp.  All Rights Reserved",
  b!"//",
  b!"// This program is free software; you can redistribute it and/or modify",
  b!"// it under the terms of the GNU General Public License as published by",
  b!"// the Free Software Foundation; either version 2 of the License, or",
  b!"// (at your option) any later version.",
  b!"//",
  b!"// This program is distributed in the hope that it will be useful,",
  b!"// but WITHOUT ANY WARRANTY; without even the implied warranty of",
  b!"// MERCHANTABILITY or FITNESS FOR A PARTICULAR PURPOSE.  See the",
  b!"// GNU General Public License for more details.",
  b!"//",
  b!"// You should have received a copy of the GNU General Public License",
  b!"// along with this program; if not, write to the Free Software",
  b!"// Foundation, Inc., 51 Franklin St, Fifth Floor, Boston, MA  02110-1301  USA",
  b!"",
  b!"@mixin adjust_hue($color, $angle)",
  b!"{",
  b!"    @return hsla(deg2rad(hue($color)) + $angle, saturation($color), lightness($color), alpha($color));",
  b!"}",
  b!"",
  b!"@mixin complement($color)",
  b!"{",
  b!"    @return adjust_hue($color, $_csspp_pi_rad);",
  b!"}",
  b!"",
  b!"@mixin darken($color, $percent)",
  b!"{",
  b!"    @return lighten($color, - $percent);",
  b!"}",
  b!"",
  b!"@mixin deg2rad($angle)",
  b!"{",
  b!"    @return $angle * $_csspp_pi_rad / 180deg;",
  b!"}",
  b!"",
  b!"@mixin desaturate($color, $percent)",
  b!"{",
  b!"    @return saturate($color, - $percent);"]

/-- scripts/system/functions.scss:41-80 -/
def functionsText1 : Str := file [
  b!"}",
  b!"",
  b!"@mixin fade_in($color, $number)",
  b!"{",
  b!"    @return opacify($color, $number);",
  b!"}",
  b!"",
  b!"@mixin fade_out($color, $number)",
  b!"{",
  b!"    @return transparentize($color, $number);",
  b!"}",
  b!"",
  b!"@mixin grayscale($color)",
  b!"{",
  b!"    // TBD: we may want to use a much better gray scale computation",
  b!"    //      (i.e. the Y in JPEG images is much better to the eye than",
  b!"    //      the L in HSL.)",
  b!"    @return saturate($color, - saturation($color));",
  b!"}",
  b!"",
  b!"@mixin invert($color)",
  b!"{",
  b!"    @return rgba(255.0 - red($color), 255.0 - green($color), 255.0 - blue($color), alpha($color));",
  b!"}",
  b!"",
  b!"@mixin lighten($color, $percent)",
  b!"{",
  b!"    @return hsla(hue($color), saturation($color), lightness($color) + $percent, alpha($color));",
  b!"}",
  b!"",
  b!"@mixin mix($color1, $color2, $weight: 0.5)",
  b!"{",
  b!"    @return $color1 * $weight + $color2 * (1.0 - $weight);",
  b!"}",
  b!"",
  b!"@mixin opacify($color, $number)",
  b!"{",
  b!"    @return rgba($color, alpha($color) + $number);",
  b!"}",
  b!""]

/-- scripts/system/functions.scss:81-120 -/
def functionsText2 : Str := file [
  b!"@mixin opacity($color)",
  b!"{",
  b!"    @return alpha($color);",
  b!"}",
  b!"",
  b!"@mixin quote($identifier)",
  b!"{",
  b!"    @return string($identifier);",
  b!"}",
  b!"",
  b!"@mixin remove_unit($value)",
  b!"{",
  b!"    @return unit($value) = \"%\"",
  b!"                ? decimal_number($value)",
  b!"                : type_of($value) = \"integer\"",
  b!"                    ? $value / integer(\"1\" + unit($value))",
  b!"                    : $value / decimal_number(\"1\" + unit($value));",
  b!"}",
  b!"",
  b!"@mixin saturate($color, $percent)",
  b!"{",
  b!"    @return hsla(hue($color), saturation($color) + $percent, lightness($color), alpha($color));",
  b!"}",
  b!"",
  b!"@mixin set_unit($value, $unit)",
  b!"{",
  b!"    @return string($unit) = \"%\"",
  b!"                ? percentage($value)",
  b!"                : type_of($value) = \"integer\"",
  b!"                    ? integer(string(remove_unit($value)) + string($unit))",
  b!"                    : decimal_number(string(remove_unit($value)) + string($unit));",
  b!"}",
  b!"",
  b!"@mixin transparentize($color, $number)",
  b!"{",
  b!"    @return rgba($color, alpha($color) - $number);",
  b!"}",
  b!"",
  b!"@mixin unitless($number)",
  b!"{"]

/-- scripts/system/functions.scss:121-135 -/
def functionsText3 : Str := file [
  b!"    @return unit($number) = \"\";",
  b!"}",
  b!"",
  b!"@mixin unquote($string)",
  b!"{",
  b!"    @return identifier($string);",
  b!"}",
  b!"",
  b!"// Local Variables:",
  b!"// mode: scss",
  b!"// indent-tabs-mode: nil",
  b!"// tab-width: 4",
  b!"// End:",
  b!"",
  b!"// vim: ts=4 sw=4 et"]

/-- scripts/system/functions.scss:1-135 -/
def functionsText : Str := functionsText0 ++ (functionsText1 ++ (functionsText2 ++ (functionsText3)))

/-- scripts/system/version.scss.in:1-29 -/
def versionText0 : Str := file [
  b!"// CSS Preprocessor",
  b!"// Copyright (c) 2015-2025  Made to Order Software Corp.  All Rights Reserved",
  b!"//",
  b!"// This program is free software; you can redistribute it and/or modify",
  b!"// it under the terms of the GNU General Public License as published by",
  b!"// the Free Software Foundation; either version 2 of the License, or",
  b!"// (at your option) any later version.",
  b!"//",
  b!"// This program is distributed in the hope that it will be useful,",
  b!"// but WITHOUT ANY WARRANTY; without even the implied warranty of",
  b!"// MERCHANTABILITY or FITNESS FOR A PARTICULAR PURPOSE.  See the",
  b!"// GNU General Public License for more details.",
  b!"//",
  b!"// You should have received a copy of the GNU General Public License",
  b!"// along with this program; if not, write to the Free Software",
  b!"// Foundation, Inc., 51 Franklin St, Fifth Floor, Boston, MA  02110-1301  USA",
  b!"",
  b!"$_csspp_version: \"1.0.33\";",
  b!"$_csspp_major: 1;",
  b!"$_csspp_minor: 0;",
  b!"$_csspp_patch: 33;",
  b!"",
  b!"// Local Variables:",
  b!"// mode: scss",
  b!"// indent-tabs-mode: nil",
  b!"// tab-width: 4",
  b!"// End:",
  b!"",
  b!"// vim: ts=4 sw=4 et"]

/-- scripts/system/version.scss.in:1-29 -/
def versionText : Str := versionText0

end Csspp.Scripts
