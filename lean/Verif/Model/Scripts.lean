import Verif.Model.Basic

/-!
The validation scripts: the contents of the files of /repo/scripts/validation, byte for byte. Generated.
-/

namespace Csspp.Scripts

/-- The lines of a file. -/
def file : List Str → Str
  | [] => []
  | l :: ls => l ++ 10 :: file ls

/-- scripts/validation/pseudo-classes.scss:1-40 -/
def pseudoClasses0 : Str := file [
  b!"// CSS Preprocessor",
  b!"// Copyright (c) 2015-2025  Made to Order Software Corp.  All Rights Reserved",
  b!"//",
  b!"// This program is free software; you can redistribute it and/or modify",
  b!"// it under the terms of the GNU General Public License as published by",
  b!"// the Free Software Foundation; either version 2 of the License, or",
  b!"// (at your option) any later version.",
  b!"//",
  b!"// This program is distributed in the hope that it will be useful,",
  b!"// but WITHOUT ANY WARRANTY; without even the implied warranty of",
  b!"// MERCHANTABILITY or FITNESS FOR A PARTICULAR PURPOSE.  See the",
  b!"// GNU General Public License for more details.",
  b!"//",
  b!"// You should have received a copy of the GNU General Public License",
  b!"// along with this program; if not, write to the Free Software",
  b!"// Foundation, Inc., 51 Franklin St, Fifth Floor, Boston, MA  02110-1301  USA",
  b!"",
  b!"@if $pseudo_name != \"active\"",
  b!"and $pseudo_name != \"checked\"",
  b!"and $pseudo_name != \"disabled\"",
  b!"and $pseudo_name != \"empty\"",
  b!"and $pseudo_name != \"enabled\"",
  b!"and $pseudo_name != \"first-child\"",
  b!"and $pseudo_name != \"first-of-type\"",
  b!"and $pseudo_name != \"focus\"",
  b!"and $pseudo_name != \"hover\"",
  b!"and $pseudo_name != \"invalid\"",
  b!"and $pseudo_name != \"last-child\"",
  b!"and $pseudo_name != \"last-of-type\"",
  b!"and $pseudo_name != \"link\"",
  b!"and $pseudo_name != \"only-child\"",
  b!"and $pseudo_name != \"only-of-type\"",
  b!"and $pseudo_name != \"required\"",
  b!"and $pseudo_name != \"root\"",
  b!"and $pseudo_name != \"target\"",
  b!"and $pseudo_name != \"valid\"",
  b!"and $pseudo_name != \"visited\" {",
  b!"    @error $pseudo_name + \" is not a valid name for a pseudo class; CSS only supports root, first-child, last-child, first-of-type, last-of-type, only-child, only-of-type, empty, link, visitived, active, hover, focus, target, enabled, disabled, and checked. (functions are not included in this list since you did not use '(' at the end of the word.)\";",
  b!"}",
  b!""]

/-- scripts/validation/pseudo-classes.scss:41-48 -/
def pseudoClasses1 : Str := file [
  b!"// Local Variables:",
  b!"// mode: scss",
  b!"// indent-tabs-mode: nil",
  b!"// c-basic-offset: 4",
  b!"// tab-width: 4",
  b!"// End:",
  b!"",
  b!"// vim: ts=4 sw=4 et"]

/-- scripts/validation/pseudo-classes.scss:1-48 -/
def pseudoClasses : Str := pseudoClasses0 ++ (pseudoClasses1)

/-- scripts/validation/pseudo-elements.scss:1-40 -/
def pseudoElements0 : Str := file [
  b!"// CSS Preprocessor",
  b!"// Copyright (c) 2015-2025  Made to Order Software Corp.  All Rights Reserved",
  b!"//",
  b!"// This program is free software; you can redistribute it and/or modify",
  b!"// it under the terms of the GNU General Public License as published by",
  b!"// the Free Software Foundation; either version 2 of the License, or",
  b!"// (at your option) any later version.",
  b!"//",
  b!"// This program is distributed in the hope that it will be useful,",
  b!"// but WITHOUT ANY WARRANTY; without even the implied warranty of",
  b!"// MERCHANTABILITY or FITNESS FOR A PARTICULAR PURPOSE.  See the",
  b!"// GNU General Public License for more details.",
  b!"//",
  b!"// You should have received a copy of the GNU General Public License",
  b!"// along with this program; if not, write to the Free Software",
  b!"// Foundation, Inc., 51 Franklin St, Fifth Floor, Boston, MA  02110-1301  USA",
  b!"",
  b!"@if $pseudo_name != \"after\"",
  b!"and $pseudo_name != \"before\"",
  b!"and $pseudo_name != \"first-letter\"",
  b!"and $pseudo_name != \"first-line\"",
  b!"and $pseudo_name != \"grammar-error\"",
  b!"and $pseudo_name != \"marker\"",
  b!"and $pseudo_name != \"placeholder\"",
  b!"and $pseudo_name != \"selection\"",
  b!"and $pseudo_name != \"spelling-error\"",
  b!"// And some specialized names",
  b!"and $pseudo_name != \"-webkit-input-placeholder\"",
  b!"and $pseudo_name != \"-webkit-inner-spin-button\"",
  b!"and $pseudo_name != \"-webkit-outer-spin-button\"",
  b!"and $pseudo_name != \"-webkit-search-cancel-button\"",
  b!"and $pseudo_name != \"-webkit-search-decoration\"",
  b!"and $pseudo_name != \"-moz-placeholder\"",
  b!"and $pseudo_name != \"-moz-focus-inner\"",
  b!"and $pseudo_name != \"-moz-selection\"",
  b!"and $pseudo_name != \"-ms-input-placeholder\"",
  b!"and $pseudo_name != \"-ms-expand\"",
  b!"{",
  b!"    @error $pseudo_name + \" is not a valid name for a pseudo element; CSS only supports after, before, first-letter, first-line, grammar-error, marker, placeholder, selection, and spelling-error.\";",
  b!"}"]

/-- scripts/validation/pseudo-elements.scss:41-48 -/
def pseudoElements1 : Str := file [
  b!"",
  b!"// Local Variables:",
  b!"// mode: scss",
  b!"// indent-tabs-mode: nil",
  b!"// tab-width: 4",
  b!"// End:",
  b!"",
  b!"// vim: ts=4 sw=4 et"]

/-- scripts/validation/pseudo-elements.scss:1-48 -/
def pseudoElements : Str := pseudoElements0 ++ (pseudoElements1)

/-- scripts/validation/pseudo-functions.scss:1-29 -/
def pseudoFunctions : Str := file [
  b!"// CSS Preprocessor",
  b!"// Copyright (c) 2015-2025  Made to Order Software Corp.  All Rights Reserved",
  b!"//",
  b!"// This program is free software; you can redistribute it and/or modify",
  b!"// it under the terms of the GNU General Public License as published by",
  b!"// the Free Software Foundation; either version 2 of the License, or",
  b!"// (at your option) any later version.",
  b!"//",
  b!"// This program is distributed in the hope that it will be useful,",
  b!"// but WITHOUT ANY WARRANTY; without even the implied warranty of",
  b!"// MERCHANTABILITY or FITNESS FOR A PARTICULAR PURPOSE.  See the",
  b!"// GNU General Public License for more details.",
  b!"//",
  b!"// You should have received a copy of the GNU General Public License",
  b!"// along with this program; if not, write to the Free Software",
  b!"// Foundation, Inc., 51 Franklin St, Fifth Floor, Boston, MA  02110-1301  USA",
  b!"",
  b!"@if $pseudo_name != \"lang\"",
  b!"and $pseudo_name != \"not\" {",
  b!"    @error $pseudo_name + \" is not a valid name for a pseudo function; CSS only supports lang() and not().\";",
  b!"}",
  b!"",
  b!"// Local Variables:",
  b!"// mode: scss",
  b!"// indent-tabs-mode: nil",
  b!"// tab-width: 4",
  b!"// End:",
  b!"",
  b!"// vim: ts=4 sw=4 et"]

/-- scripts/validation/pseudo-nth-functions.scss:1-31 -/
def pseudoNthFunctions : Str := file [
  b!"// CSS Preprocessor",
  b!"// Copyright (c) 2015-2025  Made to Order Software Corp.  All Rights Reserved",
  b!"//",
  b!"// This program is free software; you can redistribute it and/or modify",
  b!"// it under the terms of the GNU General Public License as published by",
  b!"// the Free Software Foundation; either version 2 of the License, or",
  b!"// (at your option) any later version.",
  b!"//",
  b!"// This program is distributed in the hope that it will be useful,",
  b!"// but WITHOUT ANY WARRANTY; without even the implied warranty of",
  b!"// MERCHANTABILITY or FITNESS FOR A PARTICULAR PURPOSE.  See the",
  b!"// GNU General Public License for more details.",
  b!"//",
  b!"// You should have received a copy of the GNU General Public License",
  b!"// along with this program; if not, write to the Free Software",
  b!"// Foundation, Inc., 51 Franklin St, Fifth Floor, Boston, MA  02110-1301  USA",
  b!"",
  b!"@if $pseudo_name != \"nth-child\"",
  b!"and $pseudo_name != \"nth-last-child\"",
  b!"and $pseudo_name != \"nth-of-type\"",
  b!"and $pseudo_name != \"nth-last-of-type\" {",
  b!"    @error $pseudo_name + \" is not a valid name for a pseudo nth-function; CSS only supports nth-child(), nth-last-child(), nth-of-type(), nth-of-last-type().\";",
  b!"}",
  b!"",
  b!"// Local Variables:",
  b!"// mode: scss",
  b!"// indent-tabs-mode: nil",
  b!"// tab-width: 4",
  b!"// End:",
  b!"",
  b!"// vim: ts=4 sw=4 et"]

/-- scripts/validation/has-font-metrics.scss:1-30 -/
def hasFontMetrics : Str := file [
  b!"// CSS Preprocessor",
  b!"// Copyright (c) 2015-2025  Made to Order Software Corp.  All Rights Reserved",
  b!"//",
  b!"// This program is free software; you can redistribute it and/or modify",
  b!"// it under the terms of the GNU General Public License as published by",
  b!"// the Free Software Foundation; either version 2 of the License, or",
  b!"// (at your option) any later version.",
  b!"//",
  b!"// This program is distributed in the hope that it will be useful,",
  b!"// but WITHOUT ANY WARRANTY; without even the implied warranty of",
  b!"// MERCHANTABILITY or FITNESS FOR A PARTICULAR PURPOSE.  See the",
  b!"// GNU General Public License for more details.",
  b!"//",
  b!"// You should have received a copy of the GNU General Public License",
  b!"// along with this program; if not, write to the Free Software",
  b!"// Foundation, Inc., 51 Franklin St, Fifth Floor, Boston, MA  02110-1301  USA",
  b!"",
  b!"@if $field_name != \"font\"",
  b!"{",
  b!"    @error $field_name + \" never includes a font metric parameter.\";",
  b!"}",
  b!"",
  b!"// Local Variables:",
  b!"// mode: scss",
  b!"// indent-tabs-mode: nil",
  b!"// tab-width: 4",
  b!"// End:",
  b!"",
  b!"// vim: ts=4 sw=4 et",
  b!""]

/-- scripts/validation/slash-separator.scss:1-30 -/
def slashSeparator : Str := file [
  b!"// CSS Preprocessor",
  b!"// Copyright (c) 2015-2025  Made to Order Software Corp.  All Rights Reserved",
  b!"//",
  b!"// This program is free software; you can redistribute it and/or modify",
  b!"// it under the terms of the GNU General Public License as published by",
  b!"// the Free Software Foundation; either version 2 of the License, or",
  b!"// (at your option) any later version.",
  b!"//",
  b!"// This program is distributed in the hope that it will be useful,",
  b!"// but WITHOUT ANY WARRANTY; without even the implied warranty of",
  b!"// MERCHANTABILITY or FITNESS FOR A PARTICULAR PURPOSE.  See the",
  b!"// GNU General Public License for more details.",
  b!"//",
  b!"// You should have received a copy of the GNU General Public License",
  b!"// along with this program; if not, write to the Free Software",
  b!"// Foundation, Inc., 51 Franklin St, Fifth Floor, Boston, MA  02110-1301  USA",
  b!"",
  b!"@if $field_name != \"border-radius\" // border-radius: 1em / 5em; (eliptic)",
  b!"{",
  b!"    @error $field_name + \" never includes a slash (/) as a separator.\";",
  b!"}",
  b!"",
  b!"// Local Variables:",
  b!"// mode: scss",
  b!"// indent-tabs-mode: nil",
  b!"// tab-width: 4",
  b!"// End:",
  b!"",
  b!"// vim: ts=4 sw=4 et",
  b!""]

/-- scripts/validation/languages.scss:1-40 -/
def languages0 : Str := file [
  b!"// CSS Preprocessor",
  b!"// Copyright (c) 2015-2025  Made to Order Software Corp.  All Rights Reserved",
  b!"//",
  b!"// This program is free software; you can redistribute it and/or modify",
  b!"// it under the terms of the GNU General Public License as published by",
  b!"// the Free Software Foundation; either version 2 of the License, or",
  b!"// (at your option) any later version.",
  b!"//",
  b!"// This program is distributed in the hope that it will be useful,",
  b!"// but WITHOUT ANY WARRANTY; without even the implied warranty of",
  b!"// MERCHANTABILITY or FITNESS FOR A PARTICULAR PURPOSE.  See the",
  b!"// GNU General Public License for more details.",
  b!"//",
  b!"// You should have received a copy of the GNU General Public License",
  b!"// along with this program; if not, write to the Free Software",
  b!"// Foundation, Inc., 51 Franklin St, Fifth Floor, Boston, MA  02110-1301  USA",
  b!"",
  b!"@if $language_name != \"aa\"",
  b!"and $language_name != \"ab\"",
  b!"and $language_name != \"af\"",
  b!"and $language_name != \"am\"",
  b!"and $language_name != \"ar\"",
  b!"and $language_name != \"as\"",
  b!"and $language_name != \"ay\"",
  b!"and $language_name != \"az\"",
  b!"and $language_name != \"ba\"",
  b!"and $language_name != \"be\"",
  b!"and $language_name != \"bg\"",
  b!"and $language_name != \"bh\"",
  b!"and $language_name != \"bi\"",
  b!"and $language_name != \"bn\"",
  b!"and $language_name != \"bo\"",
  b!"and $language_name != \"br\"",
  b!"and $language_name != \"ca\"",
  b!"and $language_name != \"co\"",
  b!"and $language_name != \"cs\"",
  b!"and $language_name != \"cy\"",
  b!"and $language_name != \"da\"",
  b!"and $language_name != \"de\"",
  b!"and $language_name != \"dz\""]

/-- scripts/validation/languages.scss:41-80 -/
def languages1 : Str := file [
  b!"and $language_name != \"el\"",
  b!"and $language_name != \"en\"",
  b!"and $language_name != \"eo\"",
  b!"and $language_name != \"es\"",
  b!"and $language_name != \"et\"",
  b!"and $language_name != \"eu\"",
  b!"and $language_name != \"fa\"",
  b!"and $language_name != \"fi\"",
  b!"and $language_name != \"fj\"",
  b!"and $language_name != \"fo\"",
  b!"and $language_name != \"fr\"",
  b!"and $language_name != \"fy\"",
  b!"and $language_name != \"ga\"",
  b!"and $language_name != \"gd\"",
  b!"and $language_name != \"gl\"",
  b!"and $language_name != \"gn\"",
  b!"and $language_name != \"gu\"",
  b!"and $language_name != \"ha\"",
  b!"and $language_name != \"he\"",
  b!"and $language_name != \"hi\"",
  b!"and $language_name != \"hr\"",
  b!"and $language_name != \"hu\"",
  b!"and $language_name != \"hy\"",
  b!"and $language_name != \"ia\"",
  b!"and $language_name != \"id\"",
  b!"and $language_name != \"ie\"",
  b!"and $language_name != \"ik\"",
  b!"and $language_name != \"is\"",
  b!"and $language_name != \"it\"",
  b!"and $language_name != \"ja\"",
  b!"and $language_name != \"jv\"",
  b!"and $language_name != \"ka\"",
  b!"and $language_name != \"kk\"",
  b!"and $language_name != \"kl\"",
  b!"and $language_name != \"km\"",
  b!"and $language_name != \"kn\"",
  b!"and $language_name != \"ko\"",
  b!"and $language_name != \"ks\"",
  b!"and $language_name != \"ku\"",
  b!"and $language_name != \"ky\""]

/-- scripts/validation/languages.scss:81-120 -/
def languages2 : Str := file [
  b!"and $language_name != \"la\"",
  b!"and $language_name != \"ln\"",
  b!"and $language_name != \"lo\"",
  b!"and $language_name != \"lt\"",
  b!"and $language_name != \"lv\"",
  b!"and $language_name != \"mg\"",
  b!"and $language_name != \"mi\"",
  b!"and $language_name != \"mk\"",
  b!"and $language_name != \"ml\"",
  b!"and $language_name != \"mn\"",
  b!"and $language_name != \"mo\"",
  b!"and $language_name != \"mr\"",
  b!"and $language_name != \"ms\"",
  b!"and $language_name != \"mt\"",
  b!"and $language_name != \"my\"",
  b!"and $language_name != \"na\"",
  b!"and $language_name != \"ne\"",
  b!"and $language_name != \"nl\"",
  b!"and $language_name != \"no\"",
  b!"and $language_name != \"oc\"",
  b!"and $language_name != \"om\"",
  b!"and $language_name != \"or\"",
  b!"and $language_name != \"pa\"",
  b!"and $language_name != \"pl\"",
  b!"and $language_name != \"ps\"",
  b!"and $language_name != \"pt\"",
  b!"and $language_name != \"qu\"",
  b!"and $language_name != \"rm\"",
  b!"and $language_name != \"rn\"",
  b!"and $language_name != \"ro\"",
  b!"and $language_name != \"ru\"",
  b!"and $language_name != \"rw\"",
  b!"and $language_name != \"sa\"",
  b!"and $language_name != \"sd\"",
  b!"and $language_name != \"sg\"",
  b!"and $language_name != \"sh\"",
  b!"and $language_name != \"si\"",
  b!"and $language_name != \"sk\"",
  b!"and $language_name != \"sl\"",
  b!"and $language_name != \"sm\""]

/-- scripts/validation/languages.scss:121-160 -/
def languages3 : Str := file [
  b!"and $language_name != \"sn\"",
  b!"and $language_name != \"so\"",
  b!"and $language_name != \"sq\"",
  b!"and $language_name != \"sr\"",
  b!"and $language_name != \"ss\"",
  b!"and $language_name != \"st\"",
  b!"and $language_name != \"su\"",
  b!"and $language_name != \"sv\"",
  b!"and $language_name != \"sw\"",
  b!"and $language_name != \"ta\"",
  b!"and $language_name != \"te\"",
  b!"and $language_name != \"tg\"",
  b!"and $language_name != \"th\"",
  b!"and $language_name != \"ti\"",
  b!"and $language_name != \"tk\"",
  b!"and $language_name != \"tl\"",
  b!"and $language_name != \"tn\"",
  b!"and $language_name != \"to\"",
  b!"and $language_name != \"tr\"",
  b!"and $language_name != \"ts\"",
  b!"and $language_name != \"tt\"",
  b!"and $language_name != \"tw\"",
  b!"and $language_name != \"uk\"",
  b!"and $language_name != \"ur\"",
  b!"and $language_name != \"uz\"",
  b!"and $language_name != \"vi\"",
  b!"and $language_name != \"vo\"",
  b!"and $language_name != \"wo\"",
  b!"and $language_name != \"xh\"",
  b!"and $language_name != \"yi\"",
  b!"and $language_name != \"yo\"",
  b!"and $language_name != \"zh\"",
  b!"and $language_name != \"zu\" {",
  b!"    @error $language_name + \" is not a valid language name for :lang().\";",
  b!"}",
  b!"",
  b!"// Local Variables:",
  b!"// mode: scss",
  b!"// indent-tabs-mode: nil",
  b!"// tab-width: 4"]

/-- scripts/validation/languages.scss:161-163 -/
def languages4 : Str := file [
  b!"// End:",
  b!"",
  b!"// vim: ts=4 sw=4 et"]

/-- scripts/validation/languages.scss:1-163 -/
def languages : Str := languages0 ++ (languages1 ++ (languages2 ++ (languages3 ++ (languages4))))

/-- scripts/validation/countries.scss:1-40 -/
def countries0 : Str := file [
  b!"// CSS Preprocessor",
  b!"// Copyright (c) 2015-2025  Made to Order Software Corp.  All Rights Reserved",
  b!"//",
  b!"// This program is free software; you can redistribute it and/or modify",
  b!"// it under the terms of the GNU General Public License as published by",
  b!"// the Free Software Foundation; either version 2 of the License, or",
  b!"// (at your option) any later version.",
  b!"//",
  b!"// This program is distributed in the hope that it will be useful,",
  b!"// but WITHOUT ANY WARRANTY; without even the implied warranty of",
  b!"// MERCHANTABILITY or FITNESS FOR A PARTICULAR PURPOSE.  See the",
  b!"// GNU General Public License for more details.",
  b!"//",
  b!"// You should have received a copy of the GNU General Public License",
  b!"// along with this program; if not, write to the Free Software",
  b!"// Foundation, Inc., 51 Franklin St, Fifth Floor, Boston, MA  02110-1301  USA",
  b!"",
  b!"@if $country_name != \"ad\"",
  b!"and $country_name != \"ae\"",
  b!"and $country_name != \"af\"",
  b!"and $country_name != \"ag\"",
  b!"and $country_name != \"ai\"",
  b!"and $country_name != \"al\"",
  b!"and $country_name != \"am\"",
  b!"and $country_name != \"ao\"",
  b!"and $country_name != \"aq\"",
  b!"and $country_name != \"ar\"",
  b!"and $country_name != \"as\"",
  b!"and $country_name != \"at\"",
  b!"and $country_name != \"au\"",
  b!"and $country_name != \"aw\"",
  b!"and $country_name != \"ax\"",
  b!"and $country_name != \"az\"",
  b!"and $country_name != \"ba\"",
  b!"and $country_name != \"bb\"",
  b!"and $country_name != \"bd\"",
  b!"and $country_name != \"be\"",
  b!"and $country_name != \"bf\"",
  b!"and $country_name != \"bg\"",
  b!"and $country_name != \"bh\""]

/-- scripts/validation/countries.scss:41-80 -/
def countries1 : Str := file [
  b!"and $country_name != \"bi\"",
  b!"and $country_name != \"bj\"",
  b!"and $country_name != \"bl\"",
  b!"and $country_name != \"bm\"",
  b!"and $country_name != \"bn\"",
  b!"and $country_name != \"bo\"",
  b!"and $country_name != \"bq\"",
  b!"and $country_name != \"br\"",
  b!"and $country_name != \"bs\"",
  b!"and $country_name != \"bt\"",
  b!"and $country_name != \"bv\"",
  b!"and $country_name != \"bw\"",
  b!"and $country_name != \"by\"",
  b!"and $country_name != \"bz\"",
  b!"and $country_name != \"ca\"",
  b!"and $country_name != \"cc\"",
  b!"and $country_name != \"cd\"",
  b!"and $country_name != \"cf\"",
  b!"and $country_name != \"cg\"",
  b!"and $country_name != \"ch\"",
  b!"and $country_name != \"ci\"",
  b!"and $country_name != \"ck\"",
  b!"and $country_name != \"cl\"",
  b!"and $country_name != \"cm\"",
  b!"and $country_name != \"cn\"",
  b!"and $country_name != \"co\"",
  b!"and $country_name != \"cr\"",
  b!"and $country_name != \"cu\"",
  b!"and $country_name != \"cv\"",
  b!"and $country_name != \"cw\"",
  b!"and $country_name != \"cx\"",
  b!"and $country_name != \"cy\"",
  b!"and $country_name != \"cz\"",
  b!"and $country_name != \"de\"",
  b!"and $country_name != \"dj\"",
  b!"and $country_name != \"dk\"",
  b!"and $country_name != \"dm\"",
  b!"and $country_name != \"do\"",
  b!"and $country_name != \"dz\"",
  b!"and $country_name != \"ec\""]

/-- scripts/validation/countries.scss:81-120 -/
def countries2 : Str := file [
  b!"and $country_name != \"ee\"",
  b!"and $country_name != \"eg\"",
  b!"and $country_name != \"eh\"",
  b!"and $country_name != \"er\"",
  b!"and $country_name != \"es\"",
  b!"and $country_name != \"et\"",
  b!"and $country_name != \"fi\"",
  b!"and $country_name != \"fj\"",
  b!"and $country_name != \"fk\"",
  b!"and $country_name != \"fm\"",
  b!"and $country_name != \"fo\"",
  b!"and $country_name != \"fr\"",
  b!"and $country_name != \"ga\"",
  b!"and $country_name != \"gb\"",
  b!"and $country_name != \"gd\"",
  b!"and $country_name != \"ge\"",
  b!"and $country_name != \"gf\"",
  b!"and $country_name != \"gg\"",
  b!"and $country_name != \"gh\"",
  b!"and $country_name != \"gi\"",
  b!"and $country_name != \"gl\"",
  b!"and $country_name != \"gm\"",
  b!"and $country_name != \"gn\"",
  b!"and $country_name != \"gp\"",
  b!"and $country_name != \"gq\"",
  b!"and $country_name != \"gr\"",
  b!"and $country_name != \"gs\"",
  b!"and $country_name != \"gt\"",
  b!"and $country_name != \"gu\"",
  b!"and $country_name != \"gw\"",
  b!"and $country_name != \"gy\"",
  b!"and $country_name != \"hk\"",
  b!"and $country_name != \"hm\"",
  b!"and $country_name != \"hn\"",
  b!"and $country_name != \"hr\"",
  b!"and $country_name != \"ht\"",
  b!"and $country_name != \"hu\"",
  b!"and $country_name != \"id\"",
  b!"and $country_name != \"ie\"",
  b!"and $country_name != \"il\""]

/-- scripts/validation/countries.scss:121-160 -/
def countries3 : Str := file [
  b!"and $country_name != \"im\"",
  b!"and $country_name != \"in\"",
  b!"and $country_name != \"io\"",
  b!"and $country_name != \"iq\"",
  b!"and $country_name != \"ir\"",
  b!"and $country_name != \"is\"",
  b!"and $country_name != \"it\"",
  b!"and $country_name != \"je\"",
  b!"and $country_name != \"jm\"",
  b!"and $country_name != \"jo\"",
  b!"and $country_name != \"jp\"",
  b!"and $country_name != \"ke\"",
  b!"and $country_name != \"kg\"",
  b!"and $country_name != \"kh\"",
  b!"and $country_name != \"ki\"",
  b!"and $country_name != \"km\"",
  b!"and $country_name != \"kn\"",
  b!"and $country_name != \"kp\"",
  b!"and $country_name != \"kr\"",
  b!"and $country_name != \"kw\"",
  b!"and $country_name != \"ky\"",
  b!"and $country_name != \"kz\"",
  b!"and $country_name != \"la\"",
  b!"and $country_name != \"lb\"",
  b!"and $country_name != \"lc\"",
  b!"and $country_name != \"li\"",
  b!"and $country_name != \"lk\"",
  b!"and $country_name != \"lr\"",
  b!"and $country_name != \"ls\"",
  b!"and $country_name != \"lt\"",
  b!"and $country_name != \"lu\"",
  b!"and $country_name != \"lv\"",
  b!"and $country_name != \"ly\"",
  b!"and $country_name != \"ma\"",
  b!"and $country_name != \"mc\"",
  b!"and $country_name != \"md\"",
  b!"and $country_name != \"me\"",
  b!"and $country_name != \"mf\"",
  b!"and $country_name != \"mg\"",
  b!"and $country_name != \"mh\""]

/-- scripts/validation/countries.scss:161-200 -/
def countries4 : Str := file [
  b!"and $country_name != \"mk\"",
  b!"and $country_name != \"ml\"",
  b!"and $country_name != \"mm\"",
  b!"and $country_name != \"mn\"",
  b!"and $country_name != \"mo\"",
  b!"and $country_name != \"mp\"",
  b!"and $country_name != \"mq\"",
  b!"and $country_name != \"mr\"",
  b!"and $country_name != \"ms\"",
  b!"and $country_name != \"mt\"",
  b!"and $country_name != \"mu\"",
  b!"and $country_name != \"mv\"",
  b!"and $country_name != \"mw\"",
  b!"and $country_name != \"mx\"",
  b!"and $country_name != \"my\"",
  b!"and $country_name != \"mz\"",
  b!"and $country_name != \"na\"",
  b!"and $country_name != \"nc\"",
  b!"and $country_name != \"ne\"",
  b!"and $country_name != \"nf\"",
  b!"and $country_name != \"ng\"",
  b!"and $country_name != \"ni\"",
  b!"and $country_name != \"nl\"",
  b!"and $country_name != \"no\"",
  b!"and $country_name != \"np\"",
  b!"and $country_name != \"nr\"",
  b!"and $country_name != \"nu\"",
  b!"and $country_name != \"nz\"",
  b!"and $country_name != \"om\"",
  b!"and $country_name != \"pa\"",
  b!"and $country_name != \"pe\"",
  b!"and $country_name != \"pf\"",
  b!"and $country_name != \"pg\"",
  b!"and $country_name != \"ph\"",
  b!"and $country_name != \"pk\"",
  b!"and $country_name != \"pl\"",
  b!"and $country_name != \"pm\"",
  b!"and $country_name != \"pn\"",
  b!"and $country_name != \"pr\"",
  b!"and $country_name != \"ps\""]

/-- scripts/validation/countries.scss:201-240 -/
def countries5 : Str := file [
  b!"and $country_name != \"pt\"",
  b!"and $country_name != \"pw\"",
  b!"and $country_name != \"py\"",
  b!"and $country_name != \"qa\"",
  b!"and $country_name != \"re\"",
  b!"and $country_name != \"ro\"",
  b!"and $country_name != \"rs\"",
  b!"and $country_name != \"ru\"",
  b!"and $country_name != \"rw\"",
  b!"and $country_name != \"sa\"",
  b!"and $country_name != \"sb\"",
  b!"and $country_name != \"sc\"",
  b!"and $country_name != \"sd\"",
  b!"and $country_name != \"se\"",
  b!"and $country_name != \"sg\"",
  b!"and $country_name != \"sh\"",
  b!"and $country_name != \"si\"",
  b!"and $country_name != \"sj\"",
  b!"and $country_name != \"sk\"",
  b!"and $country_name != \"sl\"",
  b!"and $country_name != \"sm\"",
  b!"and $country_name != \"sn\"",
  b!"and $country_name != \"so\"",
  b!"and $country_name != \"sr\"",
  b!"and $country_name != \"ss\"",
  b!"and $country_name != \"st\"",
  b!"and $country_name != \"sv\"",
  b!"and $country_name != \"sx\"",
  b!"and $country_name != \"sy\"",
  b!"and $country_name != \"sz\"",
  b!"and $country_name != \"tc\"",
  b!"and $country_name != \"td\"",
  b!"and $country_name != \"tf\"",
  b!"and $country_name != \"tg\"",
  b!"and $country_name != \"th\"",
  b!"and $country_name != \"tj\"",
  b!"and $country_name != \"tk\"",
  b!"and $country_name != \"tla\"",
  b!"and $country_name != \"tm\"",
  b!"and $country_name != \"tn\""]

/-- scripts/validation/countries.scss:241-276 -/
def countries6 : Str := file [
  b!"and $country_name != \"to\"",
  b!"and $country_name != \"tr\"",
  b!"and $country_name != \"tt\"",
  b!"and $country_name != \"tv\"",
  b!"and $country_name != \"tw\"",
  b!"and $country_name != \"tz\"",
  b!"and $country_name != \"ua\"",
  b!"and $country_name != \"ug\"",
  b!"and $country_name != \"um\"",
  b!"and $country_name != \"us\"",
  b!"and $country_name != \"uy\"",
  b!"and $country_name != \"uz\"",
  b!"and $country_name != \"va\"",
  b!"and $country_name != \"vc\"",
  b!"and $country_name != \"ve\"",
  b!"and $country_name != \"vg\"",
  b!"and $country_name != \"vi\"",
  b!"and $country_name != \"vn\"",
  b!"and $country_name != \"vu\"",
  b!"and $country_name != \"wf\"",
  b!"and $country_name != \"ws\"",
  b!"and $country_name != \"ye\"",
  b!"and $country_name != \"yt\"",
  b!"and $country_name != \"za\"",
  b!"and $country_name != \"zm\"",
  b!"and $country_name != \"zw\" {",
  b!"    @error $country_name + \" is not a valid country name for :lang().\";",
  b!"}",
  b!"",
  b!"// Local Variables:",
  b!"// mode: scss",
  b!"// indent-tabs-mode: nil",
  b!"// tab-width: 4",
  b!"// End:",
  b!"",
  b!"// vim: ts=4 sw=4 et"]

/-- scripts/validation/countries.scss:1-276 -/
def countries : Str := countries0 ++ (countries1 ++ (countries2 ++ (countries3 ++ (countries4 ++ (countries5 ++ (countries6))))))

end Csspp.Scripts
