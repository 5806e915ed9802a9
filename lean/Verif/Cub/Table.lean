/-! The values of include/TriangleCubatureRules.hpp, in units of `10^-15`, in the order written.

Simplified: a double literal is the decimal number it writes (the nearest double differs by at most `2^-54`). -/

namespace Blitzdg.Cub

/-- include/TriangleCubatureRules.hpp lines 27-27: right-hand side of `CubatureRules_[0] = ...`. -/
def vals0 : List Int :=
  [-333333333333333, -333333333333333, 2000000000000000]

/-- include/TriangleCubatureRules.hpp lines 30-32: right-hand side of `CubatureRules_[1] = ...`. -/
def vals1 : List Int :=
  [-666666666666667, -666666666666667, 666666666666667, 333333333333333, -666666666666667, 666666666666667, -666666666666667, 333333333333333, 666666666666667]

/-- include/TriangleCubatureRules.hpp lines 35-40: right-hand side of `CubatureRules_[2] = ...`. The commas after the first value of row 2 and after the third values of rows 4 and 5 are
missing in the source, so that two literals form one difference: fifteen values instead of eighteen. -/
def vals2 : List Int :=
  [-816847572980458, -816847572980458, 219903487310644, -183152427019542, 219903487310644, -816847572980459, 633695145960917, 219903487310644, -108103018168070,
   -108103018168070, -337030784307837, -108103018168070, 338660161187953, -783793963663860, 446763179356023]

/-- include/TriangleCubatureRules.hpp lines 45-51: right-hand side of `CubatureRules_[4] = ...`. -/
def vals4 : List Int :=
  [-333333333333333, -333333333333333, 450000000000000, -59715871789770, -59715871789770, 264788305577012, -880568256420460, -59715871789770, 264788305577012,
   -59715871789770, -880568256420460, 264788305577012, -797426985353087, -797426985353087, 251878361089654, 594853970706175, -797426985353087, 251878361089654,
   -797426985353087, 594853970706175, 251878361089654]

/-- include/TriangleCubatureRules.hpp lines 54-65: right-hand side of `CubatureRules_[5] = ...`. -/
def vals5 : List Int :=
  [-501426509658179, -501426509658179, 233572551452759, 2853019316358, -501426509658179, 233572551452759, -501426509658179, 2853019316358, 233572551452759,
   -873821971016996, -873821971016996, 101689812740414, 747643942033991, -873821971016996, 101689812740414, -873821971016996, 747643942033991, 101689812740414,
   -379295097932431, -893709900310366, 165702151236747, -893709900310366, -379295097932431, 165702151236747, 273004998242797, -893709900310366, 165702151236747,
   -893709900310366, 273004998242797, 165702151236747, 273004998242797, -379295097932431, 165702151236747, -379295097932431, 273004998242797, 165702151236747]

/-- include/TriangleCubatureRules.hpp lines 68-82: right-hand side of `CubatureRules_[6] = ...`. -/
def vals6 : List Int :=
  [-158765070723907, -158765070723907, 278402959350494, -682469858552186, -158765070723907, 278402959350494, -158765070723907, -682469858552186, 278402959350494,
   -901937632421608, -901937632421608, 63653882657145, 803875264843215, -901937632421608, 63653882657145, -901937632421608, 803875264843215, 63653882657145,
   -696696002590528, -696696002590528, 168642646759703, 393392005181056, -696696002590528, 168642646759703, -696696002590528, 393392005181056, 168642646759703,
   348275575962283, -375762055856278, 77983588949662, -375762055856278, 348275575962283, 77983588949662, -972513520106005, -375762055856278, 77983588949662,
   -375762055856278, -972513520106005, 77983588949662, -972513520106005, 348275575962283, 77983588949662, 348275575962283, -972513520106005, 77983588949662]

/-- include/TriangleCubatureRules.hpp lines 85-100: right-hand side of `CubatureRules_[7] = ...`. -/
def vals7 : List Int :=
  [-333333333333333, -333333333333333, 288631215355574, -81414823414554, -81414823414554, 190183268534569, -837170353170893, -81414823414554, 190183268534569,
   -81414823414554, -837170353170893, 190183268534569, -658861384496480, -658861384496480, 206434741069437, 317722768992959, -658861384496480, 206434741069437,
   -658861384496480, 317722768992959, 206434741069437, -898905543365938, -898905543365938, 64916995246396, 797811086731876, -898905543365938, 64916995246396,
   -898905543365938, 797811086731876, 64916995246396, -473774340730724, 456984785910809, 54460628348870, 456984785910809, -473774340730724, 54460628348870,
   -983210445180085, 456984785910809, 54460628348870, 456984785910809, -983210445180085, 54460628348870, -983210445180085, -473774340730724, 54460628348870,
   -473774340730724, -983210445180085, 54460628348870]

/-- include/TriangleCubatureRules.hpp lines 103-121: right-hand side of `CubatureRules_[8] = ...`. -/
def vals8 : List Int :=
  [-333333333333333, -333333333333333, 194271592565598, -20634961602525, -20634961602525, 62669400454278, -958730076794950, -20634961602525, 62669400454278,
   -20634961602525, -958730076794950, 62669400454278, -125820817014127, -125820817014127, 155655082009549, -748358365971746, -125820817014127, 155655082009549,
   -125820817014127, -748358365971746, 155655082009549, -623592928761935, -623592928761935, 159295477854420, 247185857523869, -623592928761935, 159295477854420,
   -623592928761935, 247185857523869, 159295477854420, -910540973211095, -910540973211095, 51155351317396, 821081946422189, -910540973211095, 51155351317396,
   -910540973211095, 821081946422189, 51155351317396, 482397197568996, -556074021678469, 86567078754579, -556074021678469, 482397197568996, 86567078754579,
   -926323175890527, -556074021678469, 86567078754579, -556074021678469, -926323175890527, 86567078754579, -926323175890527, 482397197568996, 86567078754579,
   482397197568996, -926323175890527, 86567078754579]

/-- include/TriangleCubatureRules.hpp lines 124-148: right-hand side of `CubatureRules_[9] = ...`. -/
def vals9 : List Int :=
  [-333333333333333, -333333333333333, 167046799610393, -4269134091050, -4269134091050, 14459701184113, -991461731817899, -4269134091050, 14459701184113,
   -4269134091050, -991461731817899, 14459701184113, -143975100541888, -143975100541888, 148984355841961, -712049798916225, -143975100541888, 148984355841961,
   -143975100541888, -712049798916225, 148984355841961, -630487174513551, -630487174513551, 157292946806217, 260974349027102, -630487174513551, 157292946806217,
   -630487174513551, 260974349027102, 157292946806217, -959037562856645, -959037562856645, 13856646174215, 918075125713290, -959037562856645, 13856646174215,
   -959037562856645, 918075125713290, 13856646174215, -726852847487933, 656846867693389, 59036640669559, 656846867693389, -726852847487933, 59036640669559,
   -929994020205456, 656846867693389, 59036640669559, 656846867693389, -929994020205456, 59036640669559, -929994020205456, -726852847487933, 59036640669559,
   -726852847487933, -929994020205456, 59036640669559, -334512798822723, 259414658305837, 79158734392122, 259414658305837, -334512798822723, 79158734392122,
   -924901859483115, 259414658305837, 79158734392122, 259414658305837, -924901859483115, 79158734392122, -924901859483115, -334512798822723, 79158734392122,
   -334512798822723, -924901859483115, 79158734392122]

/-- include/TriangleCubatureRules.hpp lines 151-178: right-hand side of `CubatureRules_[10] = ...`. -/
def vals10 : List Int :=
  [-333333333333333, -333333333333333, 171542269659139, -8227986519701, -8227986519701, 33232309648099, -983544026960598, -8227986519701, 33232309648099,
   -8227986519701, -983544026960598, 33232309648099, -123062767323470, -123062767323470, 134650934561697, -753874465353061, -123062767323470, 134650934561697,
   -123062767323470, -753874465353061, 134650934561697, -579583807314522, -579583807314522, 141045284213931, 159167614629044, -579583807314522, 141045284213931,
   -579583807314522, 159167614629044, 141045284213931, -794793191450311, -794793191450311, 77255352409353, 589586382900622, -794793191450311, 77255352409353,
   -794793191450311, 589586382900622, 77255352409353, -943045809035533, -943045809035533, 20851693311810, 886091618071066, -943045809035533, 20851693311810,
   -943045809035533, 886091618071066, 20851693311810, -701412405190965, 686811031831200, 20556454130106, 686811031831200, -701412405190965, 20556454130106,
   -985398626640235, 686811031831200, 20556454130106, 686811031831200, -985398626640235, 20556454130106, -985398626640235, -701412405190966, 20556454130106,
   -701412405190966, -985398626640235, 20556454130106, -420944470627256, 328932876191794, 80668713854259, 328932876191794, -420944470627256, 80668713854259,
   -907988405564538, 328932876191794, 80668713854259, 328932876191794, -907988405564538, 80668713854259, -907988405564538, -420944470627256, 80668713854259,
   -420944470627256, -907988405564538, 80668713854259]

/-- include/TriangleCubatureRules.hpp lines 181-216: right-hand side of `CubatureRules_[11] = ...`. -/
def vals11 : List Int :=
  [-115127288420454, -115127288420454, 88694050812375, -769745423159092, -115127288420454, 88694050812375, -115127288420454, -769745423159092, 88694050812375,
   -241326933740970, -241326933740970, 83486638970495, -517346132518060, -241326933740970, 83486638970495, -241326933740970, -517346132518060, 83486638970495,
   -773435586772427, -773435586772427, 61949370456958, 546871173544855, -773435586772427, 61949370456958, -773435586772427, 546871173544855, 61949370456958,
   -550360151853422, -550360151853422, 96926744607805, 100720303706844, -550360151853422, 96926744607805, -550360151853422, 100720303706844, 96926744607805,
   -949850839686919, -949850839686919, 16284715813394, 899701679373837, -949850839686919, 16284715813394, -949850839686919, 899701679373837, 16284715813394,
   -23247583079632, -23247583079632, 47730162209543, -953504833840737, -23247583079632, 47730162209543, -23247583079632, -953504833840737, 47730162209543,
   701114686742190, -956341185792092, 30740478172077, -956341185792092, 701114686742190, 30740478172077, -744773500950097, -956341185792092, 30740478172077,
   -956341185792092, -744773500950097, 30740478172077, -744773500950097, 701114686742189, 30740478172077, 701114686742189, -744773500950097, 30740478172077,
   280974603820889, -820754518409649, 73364295183933, -820754518409649, 280974603820889, 73364295183933, -460220085411240, -820754518409649, 73364295183933,
   -820754518409649, -460220085411240, 73364295183933, -460220085411240, 280974603820889, 73364295183933, 280974603820889, -460220085411240, 73364295183933,
   380092839755442, -412599349012509, 31692718542038, -412599349012509, 380092839755442, 31692718542038, -967493490742933, -412599349012509, 31692718542038,
   -412599349012509, -967493490742933, 31692718542038, -967493490742933, 380092839755442, 31692718542038, 380092839755442, -967493490742933, 31692718542038]

/-- include/TriangleCubatureRules.hpp lines 219-258: right-hand side of `CubatureRules_[12] = ...`. -/
def vals12 : List Int :=
  [-333333333333333, -333333333333333, 97649880256618, -178369512906405, -178369512906405, 90830392435257, -643260974187191, -178369512906405, 90830392435257,
   -178369512906405, -643260974187191, 90830392435257, -542160866418819, -542160866418819, 93688172298398, 84321732837639, -542160866418819, 93688172298398,
   -542160866418819, 84321732837639, 93688172298398, -771083702251175, -771083702251175, 62636625766914, 542167404502350, -771083702251175, 62636625766914,
   -771083702251175, 542167404502350, 62636625766914, -951222762153923, -951222762153923, 15384123058757, 902445524307847, -951222762153923, 15384123058757,
   -951222762153923, 902445524307847, 15384123058757, -71124044893491, -71124044893491, 63336411850675, -857751910213018, -71124044893491, 63336411850675,
   -71124044893491, -857751910213018, 63336411850675, 89497598920545, -972567007080596, 17363112895214, -972567007080596, 89497598920545, 17363112895214,
   -116930591839948, -972567007080596, 17363112895214, -972567007080596, -116930591839948, 17363112895214, -116930591839948, 89497598920545, 17363112895214,
   89497598920545, -116930591839948, 17363112895214, 708303576893352, -752827405974001, 30203519313196, -752827405974001, 708303576893352, 30203519313196,
   -955476170919351, -752827405974001, 30203519313196, -752827405974001, -955476170919351, 30203519313196, -955476170919351, 708303576893352, 30203519313196,
   708303576893352, -955476170919351, 30203519313196, 400693795223418, -438009873048077, 32954120635442, -438009873048077, 400693795223418, 32954120635442,
   -962683922175342, -438009873048076, 32954120635442, -438009873048076, -962683922175342, 32954120635442, -962683922175342, 400693795223419, 32954120635442,
   400693795223419, -962683922175342, 32954120635442, -461147708177324, -809703416305633, 73599737741711, -809703416305633, -461147708177324, 73599737741711,
   270851124482956, -809703416305633, 73599737741711, -809703416305633, 270851124482956, 73599737741711, 270851124482956, -461147708177324, 73599737741711,
   -461147708177324, 270851124482956, 73599737741711]

/-- include/TriangleCubatureRules.hpp lines 261-306: right-hand side of `CubatureRules_[13] = ...`. -/
def vals13 : List Int :=
  [-333333333333333, -333333333333333, 86016161940337, -31437623162377, -31437623162377, 20861042581505, -937124753675245, -31437623162377, 20861042581505,
   -31437623162377, -937124753675245, 20861042581505, -190179067155837, -190179067155837, 84906577433761, -619641865688325, -190179067155837, 84906577433761,
   -190179067155837, -619641865688325, 84906577433761, -544945017724160, -544945017724160, 94412955694385, 89890035448320, -544945017724160, 94412955694385,
   -544945017724160, 89890035448320, 94412955694385, -829084434528895, -829084434528895, 36931420530108, 658168869057790, -829084434528895, 36931420530108,
   -829084434528895, 658168869057790, 36931420530108, -961731843229187, -961731843229187, 9566859223433, 923463686458374, -961731843229187, 9566859223433,
   -961731843229187, 923463686458374, 9566859223433, -228055909294146, 200257489743243, 23873332102599, 200257489743243, -228055909294146, 23873332102599,
   -972201580449098, 200257489743243, 23873332102599, 200257489743243, -972201580449098, 23873332102599, -972201580449097, -228055909294146, 23873332102599,
   -228055909294146, -972201580449097, 23873332102599, -801926305237733, 769518568627872, 18006541968931, 769518568627872, -801926305237733, 18006541968931,
   -967592263390139, 769518568627872, 18006541968931, 769518568627872, -967592263390139, 18006541968931, -967592263390139, -801926305237733, 18006541968931,
   -801926305237733, -967592263390139, 18006541968931, -544893784145096, 504355701557747, 30117913357456, 504355701557747, -544893784145096, 30117913357456,
   -959461917412651, 504355701557747, 30117913357456, 504355701557747, -959461917412651, 30117913357456, -959461917412651, -544893784145095, 30117913357456,
   -544893784145095, -959461917412651, 30117913357456, -288429073961769, 109399611316741, 67035335144205, 109399611316741, -288429073961769, 67035335144205,
   -820970537354972, 109399611316741, 67035335144205, 109399611316741, -820970537354972, 67035335144205, -820970537354972, -288429073961769, 67035335144205,
   -288429073961769, -820970537354972, 67035335144205, -593507885280605, 397658756992448, 56624756038490, 397658756992448, -593507885280605, 56624756038490,
   -804150871711842, 397658756992447, 56624756038490, 397658756992447, -804150871711842, 56624756038490, -804150871711842, -593507885280605, 56624756038490,
   -593507885280605, -804150871711842, 56624756038490]

/-- include/TriangleCubatureRules.hpp lines 309-362: right-hand side of `CubatureRules_[14] = ...`. -/
def vals14 : List Int :=
  [-83438407261750, -83438407261750, 65323637697611, -833123185476500, -83438407261750, 65323637697611, -83438407261750, -833123185476500, 65323637697611,
   -192779070841739, -192779070841739, 54825636062729, -614441858316522, -192779070841739, 54825636062729, -192779070841739, -614441858316522, 54825636062729,
   -413605664173949, -413605664173949, 53020073197407, -172788671652101, -413605664173949, 53020073197407, -413605664173949, -172788671652101, 53020073197407,
   -707064426114454, -707064426114454, 58431924272972, 414128852228908, -707064426114454, 58431924272972, -707064426114454, 414128852228908, 58431924272972,
   -887274264668793, -887274264668793, 21169216132488, 774548529337586, -887274264668793, 21169216132488, -887274264668793, 774548529337586, 21169216132488,
   -966849746283259, -966849746283259, 7229286128184, 933699492566519, -966849746283259, 7229286128184, -966849746283259, 933699492566519, 7229286128184,
   -520930891690411, 501106485071962, 17055496203419, 501106485071962, -520930891690411, 17055496203419, -980175593381550, 501106485071962, 17055496203419,
   501106485071962, -980175593381550, 17055496203419, -980175593381550, -520930891690411, 17055496203419, -520930891690411, -980175593381550, 17055496203419,
   -190242385363320, 158634844102864, 27832353033384, 158634844102864, -190242385363320, 27832353033384, -968392458739544, 158634844102864, 27832353033384,
   158634844102864, -968392458739544, 27832353033384, -968392458739544, -190242385363320, 27832353033384, -190242385363320, -968392458739544, 27832353033384,
   -809995773773910, 799708556139969, 8583865881470, 799708556139969, -809995773773910, 8583865881470, -989712782366059, 799708556139969, 8583865881470,
   799708556139969, -989712782366059, 8583865881470, -989712782366059, -809995773773910, 8583865881470, -809995773773910, -989712782366059, 8583865881470,
   -700493785355452, 602649133849474, 32470658563550, 602649133849474, -700493785355452, 32470658563550, -902155348494022, 602649133849474, 32470658563550,
   602649133849474, -902155348494022, 32470658563550, -902155348494023, -700493785355452, 32470658563550, -700493785355452, -902155348494023, 32470658563550,
   -426160775117330, 288623277852292, 51214681842525, 288623277852292, -426160775117330, 51214681842525, -862462502734962, 288623277852292, 51214681842525,
   288623277852292, -862462502734962, 51214681842525, -862462502734962, -426160775117330, 51214681842525, -426160775117330, -862462502734962, 51214681842525,
   -436328663801831, 99519827552432, 66176391063291, 99519827552432, -436328663801831, 66176391063291, -663191163750602, 99519827552432, 66176391063291,
   99519827552432, -663191163750602, 66176391063291, -663191163750602, -436328663801831, 66176391063291, -436328663801831, -663191163750602, 66176391063291]

/-- include/TriangleCubatureRules.hpp lines 365-422: right-hand side of `CubatureRules_[15] = ...`. -/
def vals15 : List Int :=
  [-333333333333333, -333333333333333, 92421202321849, -15796436959213, -15796436959213, 27991652734724, -968407126081574, -15796436959213, 27991652734724,
   -15796436959213, -968407126081574, 27991652734724, -87376299046785, -87376299046785, 36406763596424, -825247401906431, -87376299046785, 36406763596424,
   -87376299046785, -825247401906431, 36406763596424, -640498098534045, -640498098534045, 62729423327251, 280996197068091, -640498098534045, 62729423327251,
   -640498098534045, 280996197068091, 62729423327251, -828211591878549, -828211591878549, 32217170192673, 656423183757099, -828211591878549, 32217170192673,
   -828211591878549, 656423183757099, 32217170192673, -977882767295650, -977882767295650, 3676792575648, 955765534591299, -977882767295650, 3676792575648,
   -977882767295650, 955765534591299, 3676792575648, -648594849699253, 619534954455185, 19075686313307, 619534954455185, -648594849699253, 19075686313307,
   -970940104755933, 619534954455185, 19075686313307, 619534954455185, -970940104755933, 19075686313307, -970940104755933, -648594849699253, 19075686313307,
   -648594849699253, -970940104755933, 19075686313307, -355089058161032, 324703448463838, 25111336723323, 324703448463838, -355089058161032, 25111336723323,
   -969614390302806, 324703448463838, 25111336723323, 324703448463838, -969614390302806, 25111336723323, -969614390302806, -355089058161032, 25111336723323,
   -355089058161032, -969614390302806, 25111336723323, -863082725186344, 829810165174004, 14134510743040, 829810165174004, -863082725186344, 14134510743040,
   -966727439987660, 829810165174004, 14134510743040, 829810165174004, -966727439987660, 14134510743040, -966727439987660, -863082725186344, 14134510743040,
   -863082725186344, -966727439987660, 14134510743040, -650110471151428, 511910525190604, 25255543672496, 511910525190604, -650110471151428, 25255543672496,
   -861800054039176, 511910525190604, 25255543672496, 511910525190604, -861800054039176, 25255543672496, -861800054039176, -650110471151428, 25255543672496,
   -650110471151428, -861800054039176, 25255543672496, -282624366842035, 131065359625217, 38432852520849, 131065359625217, -282624366842035, 38432852520849,
   -848440992783182, 131065359625217, 38432852520849, 131065359625217, -848440992783182, 38432852520849, -848440992783182, -282624366842035, 38432852520849,
   -282624366842035, -848440992783182, 38432852520849, -500121711290305, 333566061453817, 32993291211606, 333566061453817, -500121711290305, 32993291211606,
   -833444350163512, 333566061453817, 32993291211606, 333566061453817, -833444350163512, 32993291211606, -833444350163512, -500121711290305, 32993291211606,
   -500121711290305, -833444350163512, 32993291211606, -353308953197778, -27538833736648, 81415677215044, -27538833736648, -353308953197778, 81415677215044,
   -619152213065573, -27538833736648, 81415677215044, -27538833736648, -619152213065573, 81415677215044, -619152213065573, -353308953197778, 81415677215044,
   -353308953197778, -619152213065573, 81415677215044]

/-- include/TriangleCubatureRules.hpp lines 425-490: right-hand side of `CubatureRules_[16] = ...`. -/
def vals16 : List Int :=
  [-13565183960096, -13565183960096, 22448424077156, -972869632079808, -13565183960096, 22448424077156, -13565183960096, -972869632079808, 22448424077156,
   -918012666387151, -918012666387151, 11377816766740, 836025332774302, -918012666387151, 11377816766740, -918012666387151, 836025332774302, 11377816766740,
   -469265478050798, -469265478050798, 56148078797670, -61469043898404, -469265478050798, 56148078797670, -469265478050798, -61469043898404, 56148078797670,
   -278161974512876, -278161974512876, 31804753050686, -443676050974249, -278161974512876, 31804753050686, -278161974512876, -443676050974249, 31804753050686,
   -743831619059579, -743831619059579, 42944604159838, 487663238119159, -743831619059579, 42944604159838, -743831619059579, 487663238119159, 42944604159838,
   -975086972700342, -975086972700342, 4138336267131, 950173945400684, -975086972700342, 4138336267131, -975086972700342, 950173945400684, 4138336267131,
   -331485915788080, 305875449252880, 20094111670483, 305875449252880, -331485915788080, 20094111670483, -974389533464800, 305875449252880, 20094111670483,
   305875449252880, -974389533464800, 20094111670483, -974389533464800, -331485915788080, 20094111670483, -331485915788080, -974389533464800, 20094111670483,
   -617368143234940, 598534426856625, 13023443943004, 598534426856625, -617368143234940, 13023443943004, -981166283621686, 598534426856625, 13023443943004,
   598534426856625, -981166283621686, 13023443943004, -981166283621686, -617368143234940, 13023443943004, -617368143234940, -981166283621686, 13023443943004,
   -846737941679184, 837351785097968, 5856954369545, 837351785097968, -846737941679184, 5856954369545, -990613843418784, 837351785097968, 5856954369545,
   837351785097968, -990613843418784, 5856954369545, -990613843418784, -846737941679184, 5856954369545, -846737941679184, -990613843418784, 5856954369545,
   -530582382227094, 412831673770520, 37746172643499, 412831673770520, -530582382227094, 37746172643499, -882249291543426, 412831673770520, 37746172643499,
   412831673770520, -882249291543426, 37746172643499, -882249291543426, -530582382227094, 37746172643499, -530582382227094, -882249291543426, 37746172643499,
   -230167008731505, 92655855430620, 48362752988591, 92655855430620, -230167008731505, 48362752988591, -862488846699115, 92655855430620, 48362752988591,
   92655855430620, -862488846699115, 48362752988591, -862488846699115, -230167008731505, 48362752988591, -230167008731505, -862488846699115, 48362752988591,
   -769841956364772, 681416462088999, 23467126169388, 681416462088999, -769841956364772, 23467126169388, -911574505724228, 681416462088999, 23467126169388,
   681416462088999, -911574505724228, 23467126169388, -911574505724228, -769841956364772, 23467126169388, -769841956364772, -911574505724228, 23467126169388,
   -502901760016855, 206946937904245, 54703428836887, 206946937904245, -502901760016855, 54703428836887, -704045177887389, 206946937904245, 54703428836887,
   206946937904245, -704045177887389, 54703428836887, -704045177887389, -502901760016855, 54703428836887, -502901760016855, -704045177887389, 54703428836887,
   -258115377755090, -67105414124881, 45648336152327, -67105414124881, -258115377755090, 45648336152327, -674779208120030, -67105414124880, 45648336152327,
   -67105414124880, -674779208120030, 45648336152327, -674779208120030, -258115377755090, 45648336152327, -258115377755090, -674779208120030, 45648336152327]

/-- include/TriangleCubatureRules.hpp lines 493-565: right-hand side of `CubatureRules_[17] = ...`. -/
def vals17 : List Int :=
  [-333333333333333, -333333333333333, 44365924378076, -12131216528029, -12131216528029, 19118866558615, -975737566943942, -12131216528029, 19118866558615,
   -12131216528029, -975737566943942, 19118866558615, -230136518749796, -230136518749796, 49294282264207, -539726962500408, -230136518749796, 49294282264207,
   -230136518749796, -539726962500408, 49294282264207, -499402807850562, -499402807850562, 60654125981259, -1194384298875, -499402807850563, 60654125981259,
   -499402807850563, -1194384298875, 60654125981259, -710045241598598, -710045241598598, 31366231844497, 420090483197196, -710045241598598, 31366231844497,
   -710045241598598, 420090483197196, 31366231844497, -903019171569391, -903019171569391, 16173035699059, 806038343138783, -903019171569391, 16173035699059,
   -903019171569391, 806038343138783, 16173035699059, -972866921676664, -972866921676664, 4750076743416, 945733843353328, -972866921676664, 4750076743416,
   -972866921676664, 945733843353328, 4750076743416, -859848143426920, 852682278520227, 4329998364046, 852682278520227, -859848143426920, 4329998364046,
   -992834135093306, 852682278520227, 4329998364046, 852682278520227, -992834135093306, 4329998364046, -992834135093306, -859848143426920, 4329998364046,
   -859848143426920, -992834135093306, 4329998364046, -592208428296456, 573110619333459, 12300136592151, 573110619333459, -592208428296456, 12300136592151,
   -980902191037003, 573110619333459, 12300136592151, 573110619333459, -980902191037003, 12300136592151, -980902191037003, -592208428296456, 12300136592151,
   -592208428296456, -980902191037003, 12300136592151, -316660705097116, 294011442575493, 17146550496094, 294011442575493, -316660705097116, 17146550496094,
   -977350737478378, 294011442575493, 17146550496094, 294011442575493, -977350737478378, 17146550496094, -977350737478378, -316660705097116, 17146550496094,
   -316660705097116, -977350737478378, 17146550496094, -762708275393600, 720805143081058, 10992784367686, 720805143081058, -762708275393600, 10992784367686,
   -958096867687458, 720805143081058, 10992784367686, 720805143081058, -958096867687458, 10992784367686, -958096867687458, -762708275393600, 10992784367686,
   -762708275393600, -958096867687458, 10992784367686, -499464753852078, 389673957377540, 33988423627451, 389673957377540, -499464753852078, 33988423627451,
   -890209203525462, 389673957377540, 33988423627451, 389673957377540, -890209203525462, 33988423627451, -890209203525462, -499464753852078, 33988423627451,
   -499464753852078, -890209203525462, 33988423627451, -730193961187213, 595225312221749, 25768775250048, 595225312221749, -730193961187213, 25768775250048,
   -865031351034536, 595225312221749, 25768775250048, 595225312221749, -865031351034536, 25768775250048, -865031351034535, -730193961187213, 25768775250048,
   -730193961187213, -865031351034535, 25768775250048, -213662181077459, 92159471784540, 40023698716305, 92159471784540, -213662181077459, 40023698716305,
   -878497290707081, 92159471784540, 40023698716305, 92159471784540, -878497290707081, 40023698716305, -878497290707081, -213662181077459, 40023698716305,
   -213662181077459, -878497290707081, 40023698716305, -268906542375276, -10964677486621, 45277248097616, -10964677486621, -268906542375276, 45277248097616,
   -720128780138103, -10964677486621, 45277248097616, -10964677486621, -720128780138103, 45277248097616, -720128780138103, -268906542375276, 45277248097616,
   -268906542375276, -720128780138103, 45277248097616, -507963230765286, 233062121320884, 45433087546729, 233062121320884, -507963230765286, 45433087546729,
   -725098890555598, 233062121320884, 45433087546729, 233062121320884, -725098890555598, 45433087546729, -725098890555598, -507963230765286, 45433087546729,
   -507963230765286, -725098890555598, 45433087546729]

/-- include/TriangleCubatureRules.hpp lines 568-649: right-hand side of `CubatureRules_[18] = ...`. -/
def vals18 : List Int :=
  [-333333333333333, -333333333333333, 41424760048010, -121193890022463, -121193890022463, 31784855337689, -757612219955075, -121193890022463, 31784855337689,
   -121193890022463, -757612219955075, 31784855337689, -227921589064499, -227921589064499, 48406599909930, -544156821871001, -227921589064499, 48406599909930,
   -227921589064499, -544156821871001, 48406599909930, -480832787187258, -480832787187258, 48177661858475, -38334425625484, -480832787187258, 48177661858475,
   -480832787187258, -38334425625484, 48177661858475, -607587000462791, -607587000462791, 42691162490028, 215174000925582, -607587000462791, 42691162490028,
   -607587000462791, 215174000925582, 42691162490028, -728032884013154, -728032884013154, 31889013978028, 456065768026307, -728032884013154, 31889013978028,
   -728032884013154, 456065768026307, 31889013978028, -884999963315497, -884999963315497, 15529272923518, 769999926630994, -884999963315497, 15529272923518,
   -884999963315497, 769999926630994, 15529272923518, -973927705240279, -973927705240279, 4442852871415, 947855410480559, -973927705240279, 4442852871415,
   -973927705240279, 947855410480559, 4442852871415, -419340397282846, 418549313572482, 4599409024561, 418549313572482, -419340397282846, 4599409024561,
   -999208916289636, 418549313572482, 4599409024561, 418549313572482, -999208916289636, 4599409024561, -999208916289636, -419340397282846, 4599409024561,
   -419340397282846, -999208916289636, 4599409024561, -154285565801825, 131285016869205, 16608327001253, 131285016869205, -154285565801825, 16608327001253,
   -976999451067380, 131285016869205, 16608327001253, 131285016869205, -976999451067380, 16608327001253, -976999451067380, -154285565801825, 16608327001253,
   -154285565801825, -976999451067380, 16608327001253, -864328042937615, 842262778125134, 8508350664254, 842262778125134, -864328042937615, 8508350664254,
   -977934735187519, 842262778125134, 8508350664254, 842262778125134, -977934735187519, 8508350664254, -977934735187519, -864328042937615, 8508350664254,
   -864328042937615, -977934735187519, 8508350664254, -676980679779850, 654351228666662, 12752760516072, 654351228666662, -676980679779850, 12752760516072,
   -977370548886812, 654351228666662, 12752760516072, 654351228666662, -977370548886812, 12752760516072, -977370548886812, -676980679779850, 12752760516072,
   -676980679779850, -977370548886812, 12752760516072, -451038034994882, 391933493150074, 24864731137205, 391933493150074, -451038034994882, 24864731137205,
   -940895458155192, 391933493150074, 24864731137205, 391933493150074, -940895458155192, 24864731137205, -940895458155192, -451038034994882, 24864731137205,
   -451038034994882, -940895458155192, 24864731137205, -755079003035426, 643775758022122, 12779469878381, 643775758022122, -755079003035426, 12779469878381,
   -888696754986697, 643775758022122, 12779469878381, 643775758022122, -888696754986697, 12779469878381, -888696754986697, -755079003035426, 12779469878381,
   -755079003035426, -888696754986697, 12779469878381, -668500025831376, 544622467980326, 17801502950615, 544622467980326, -668500025831376, 17801502950615,
   -876122442148950, 544622467980326, 17801502950615, 544622467980326, -876122442148950, 17801502950615, -876122442148950, -668500025831376, 17801502950615,
   -668500025831376, -876122442148950, 17801502950615, -205954158284095, 90524206162520, 35738233266717, 90524206162520, -205954158284095, 35738233266717,
   -884570047878425, 90524206162520, 35738233266717, 90524206162520, -884570047878425, 35738233266717, -884570047878425, -205954158284095, 35738233266717,
   -205954158284095, -884570047878425, 35738233266717, -488476686471250, 295757669634562, 38344199404453, 295757669634562, -488476686471250, 38344199404453,
   -807280983163311, 295757669634562, 38344199404453, 295757669634562, -807280983163311, 38344199404453, -807280983163311, -488476686471250, 38344199404453,
   -488476686471250, -807280983163311, 38344199404453, -342507806805715, 42214391480752, 42971513130613, 42214391480752, -342507806805715, 42971513130613,
   -699706584675037, 42214391480751, 42971513130613, 42214391480751, -699706584675037, 42971513130613, -699706584675037, -342507806805715, 42971513130613,
   -342507806805715, -699706584675037, 42971513130613]

/-- include/TriangleCubatureRules.hpp lines 652-736: right-hand side of `CubatureRules_[19] = ...`. -/
def vals19 : List Int :=
  [-333333333333333, -333333333333333, 55220853995399, -1500649324429, -1500649324429, 3558059094653, -996998701351142, -1500649324429, 3558059094653,
   -1500649324429, -996998701351142, 3558059094653, -94139751938951, -94139751938951, 40224796227922, -811720496122098, -94139751938951, 40224796227922,
   -94139751938951, -811720496122098, 40224796227922, -204472124089526, -204472124089526, 53635694518663, -591055751820947, -204472124089526, 53635694518663,
   -204472124089526, -591055751820947, 53635694518663, -470999594934425, -470999594934425, 49046267603004, -58000810131149, -470999594934425, 49046267603004,
   -470999594934425, -58000810131149, 49046267603004, -577962071815846, -577962071815846, 32789156821391, 155924143631693, -577962071815846, 32789156821391,
   -577962071815846, 155924143631693, 32789156821391, -784528785657457, -784528785657457, 29591814797299, 569057571314915, -784528785657457, 29591814797299,
   -784528785657457, 569057571314915, 29591814797299, -921861824324395, -921861824324395, 9158564555409, 843723648648789, -921861824324395, 9158564555409,
   -921861824324395, 843723648648789, 9158564555409, -977651240541341, -977651240541341, 3303653031152, 955302481082681, -977651240541341, 3303653031152,
   -977651240541341, 955302481082681, 3303653031152, -872900668183296, 862201431808621, 4698341817151, 862201431808621, -872900668183296, 4698341817151,
   -989300763625325, 862201431808621, 4698341817151, 862201431808621, -989300763625325, 4698341817151, -989300763625325, -872900668183295, 4698341817151,
   -872900668183295, -989300763625325, 4698341817151, -685786162118586, 669876527986188, 8931851508364, 669876527986188, -685786162118586, 8931851508364,
   -984090365867602, 669876527986188, 8931851508364, 669876527986188, -984090365867602, 8931851508364, -984090365867602, -685786162118586, 8931851508364,
   -685786162118586, -984090365867602, 8931851508364, -208715771271252, 187870974708724, 12199133615816, 187870974708724, -208715771271252, 12199133615816,
   -979155203437472, 187870974708724, 12199133615816, 187870974708724, -979155203437472, 12199133615816, -979155203437472, -208715771271252, 12199133615816,
   -208715771271252, -979155203437472, 12199133615816, -453664858574179, 431736028981932, 13782162654376, 431736028981932, -453664858574179, 13782162654376,
   -978071170407753, 431736028981932, 13782162654376, 431736028981932, -978071170407753, 13782162654376, -978071170407753, -453664858574179, 13782162654376,
   -453664858574179, -978071170407753, 13782162654376, -796429235029966, 719295810859041, 15994950144956, 719295810859041, -796429235029966, 15994950144956,
   -922866575829075, 719295810859041, 15994950144956, 719295810859041, -922866575829075, 15994950144956, -922866575829075, -796429235029966, 15994950144956,
   -796429235029966, -922866575829075, 15994950144956, -106682901647172, 35521886012736, 14772268570672, 35521886012736, -106682901647172, 14772268570672,
   -928838984365563, 35521886012736, 14772268570672, 35521886012736, -928838984365563, 14772268570672, -928838984365564, -106682901647172, 14772268570672,
   -106682901647172, -928838984365564, 14772268570672, -601978411700994, 502636778975466, 25598663757297, 502636778975466, -601978411700994, 25598663757297,
   -900658367274472, 502636778975466, 25598663757297, 502636778975466, -900658367274472, 25598663757297, -900658367274472, -601978411700994, 25598663757297,
   -601978411700994, -900658367274472, 25598663757297, -351477632615435, 234438182446771, 34516142351393, 234438182446771, -351477632615435, 34516142351393,
   -882960549831337, 234438182446771, 34516142351393, 234438182446771, -882960549831337, 34516142351393, -882960549831337, -351477632615435, 34516142351393,
   -351477632615435, -882960549831337, 34516142351393, -582937273579734, 339941699570946, 37345891805871, 339941699570946, -582937273579734, 37345891805871,
   -757004425991211, 339941699570946, 37345891805871, 339941699570946, -757004425991211, 37345891805871, -757004425991211, -582937273579734, 37345891805871,
   -582937273579734, -757004425991211, 37345891805871, -353658866927485, 72237177039608, 45636448116791, 72237177039608, -353658866927485, 45636448116791,
   -718578310112123, 72237177039608, 45636448116791, 72237177039608, -718578310112123, 45636448116791, -718578310112123, -353658866927485, 45636448116791,
   -353658866927485, -718578310112123, 45636448116791]

/-- include/TriangleCubatureRules.hpp lines 739-831: right-hand side of `CubatureRules_[20] = ...`. -/
def vals20 : List Int :=
  [-6427416686680, -6427416686680, 9411977990382, -987145166626641, -6427416686680, 9411977990382, -6427416686680, -987145166626641, 9411977990382,
   -37371238381685, -37371238381685, 23551229711283, -925257523236629, -37371238381685, 23551229711283, -37371238381685, -925257523236629, 23551229711283,
   -101972641308225, -101972641308225, 41353961937512, -796054717383551, -101972641308225, 41353961937512, -101972641308225, -796054717383551, 41353961937512,
   -405469125577621, -405469125577621, 45947520102707, -189061748844758, -405469125577621, 45947520102707, -405469125577621, -189061748844758, 45947520102707,
   -556282620757932, -556282620757932, 47724273523632, 112565241515865, -556282620757932, 47724273523632, -556282620757932, 112565241515865, 47724273523632,
   -787490889149774, -787490889149774, 19906824503099, 574981778299548, -787490889149774, 19906824503099, -787490889149774, 574981778299548, 19906824503099,
   -892713038713217, -892713038713217, 14287994054933, 785426077426434, -892713038713217, 14287994054933, -892713038713217, 785426077426434, 14287994054933,
   -975095902008750, 956581360464913, 1538784565604, 956581360464913, -975095902008750, 1538784565604, -981485458456163, 956581360464913, 1538784565604,
   956581360464913, -981485458456163, 1538784565604, -981485458456163, -975095902008750, 1538784565604, -975095902008750, -981485458456163, 1538784565604,
   -734190363492767, 718759150923754, 7257720730941, 718759150923754, -734190363492767, 7257720730941, -984568787430988, 718759150923754, 7257720730941,
   718759150923754, -984568787430988, 7257720730941, -984568787430988, -734190363492767, 7257720730941, -734190363492767, -984568787430988, 7257720730941,
   -279909645448207, 260066127858194, 13303360825119, 260066127858194, -279909645448207, 13303360825119, -980156482409987, 260066127858194, 13303360825119,
   260066127858194, -980156482409987, 13303360825119, -980156482409987, -279909645448207, 13303360825119, -279909645448207, -980156482409987, 13303360825119,
   -527626383829046, 508213994286434, 11413497063052, 508213994286434, -527626383829046, 11413497063052, -980587610457388, 508213994286434, 11413497063052,
   508213994286434, -980587610457388, 11413497063052, -980587610457388, -527626383829046, 11413497063052, -527626383829046, -980587610457388, 11413497063052,
   -887945885434766, 867094084690673, 6552521291655, 867094084690673, -887945885434766, 6552521291655, -979148199255907, 867094084690673, 6552521291655,
   867094084690673, -979148199255907, 6552521291655, -979148199255907, -887945885434766, 6552521291655, -887945885434766, -979148199255907, 6552521291655,
   -738154400021390, 655149643679198, 17432381135646, 655149643679198, -738154400021390, 17432381135646, -916995243657807, 655149643679198, 17432381135646,
   655149643679198, -916995243657807, 17432381135646, -916995243657807, -738154400021390, 17432381135646, -738154400021390, -916995243657807, 17432381135646,
   -296840355384531, 194393499586184, 27402609499462, 194393499586184, -296840355384531, 27402609499462, -897553144201652, 194393499586184, 27402609499462,
   194393499586184, -897553144201652, 27402609499462, -897553144201652, -296840355384531, 27402609499462, -296840355384531, -897553144201652, 27402609499462,
   -531632641825188, 431035654635683, 25014173853794, 431035654635683, -531632641825188, 25014173853794, -899403012810496, 431035654635683, 25014173853794,
   431035654635683, -899403012810496, 25014173853794, -899403012810496, -531632641825188, 25014173853794, -531632641825188, -899403012810496, 25014173853794,
   -682130525363537, 500223407469218, 8690112508894, 500223407469218, -682130525363537, 8690112508894, -818092882105681, 500223407469218, 8690112508894,
   500223407469218, -818092882105681, 8690112508894, -818092882105681, -682130525363537, 8690112508894, -682130525363537, -818092882105681, 8690112508894,
   -376270450471865, 138207573987544, 37386369243416, 138207573987544, -376270450471865, 37386369243416, -761937123515678, 138207573987544, 37386369243416,
   138207573987544, -761937123515678, 37386369243416, -761937123515678, -376270450471865, 37386369243416, -376270450471865, -761937123515678, 37386369243416,
   -590719081005038, 339375331943743, 32509611084921, 339375331943743, -590719081005038, 32509611084921, -748656250938705, 339375331943743, 32509611084921,
   339375331943743, -748656250938705, 32509611084921, -748656250938705, -590719081005038, 32509611084921, -590719081005038, -748656250938705, 32509611084921,
   -305527033262063, -81590222620926, 43740300619054, -81590222620926, -305527033262063, 43740300619054, -612882744117011, -81590222620926, 43740300619054,
   -81590222620926, -612882744117011, 43740300619054, -612882744117011, -305527033262063, 43740300619054, -305527033262063, -612882744117011, 43740300619054]

/-- include/TriangleCubatureRules.hpp lines 834-933: right-hand side of `CubatureRules_[21] = ...`. -/
def vals21 : List Int :=
  [-333333333333333, -333333333333333, 52134891986775, -5980679319437, -5980679319437, 2127559342619, -988038641361126, -5980679319437, 2127559342619,
   -5980679319437, -988038641361126, 2127559342619, -112289615572167, -112289615572167, 40243429730281, -775420768855665, -112289615572167, 40243429730281,
   -112289615572167, -775420768855665, 40243429730281, -209082673923590, -209082673923590, 48340550896214, -581834652152820, -209082673923590, 48340550896214,
   -209082673923590, -581834652152820, 48340550896214, -467712894350161, -467712894350161, 47378470721283, -64574211299679, -467712894350161, 47378470721283,
   -467712894350161, -64574211299679, 47378470721283, -616276252022817, -616276252022817, 40231109011798, 232552504045635, -616276252022817, 40231109011798,
   -616276252022817, 232552504045635, 40231109011798, -755246756631224, -755246756631224, 27899919845537, 510493513262448, -755246756631224, 27899919845537,
   -755246756631224, 510493513262448, 27899919845537, -893562558892192, -893562558892192, 12350949744993, 787125117784384, -893562558892192, 12350949744993,
   -893562558892192, 787125117784384, 12350949744993, -943105536827199, -943105536827199, 3039705316805, 886211073654399, -943105536827199, 3039705316805,
   -943105536827199, 886211073654399, 3039705316805, -991786296535875, -991786296535875, 691671630889, 983572593071750, -991786296535875, 691671630889,
   -991786296535875, 983572593071750, 691671630889, -413667191986728, 401491377065593, 8022198405286, 401491377065593, -413667191986728, 8022198405286,
   -987824185078864, 401491377065593, 8022198405286, 401491377065593, -987824185078864, 8022198405286, -987824185078865, -413667191986728, 8022198405286,
   -413667191986728, -987824185078865, 8022198405286, -932052869826067, 918490219898898, 3090974933637, 918490219898898, -932052869826067, 3090974933637,
   -986437350072830, 918490219898898, 3090974933637, 918490219898898, -986437350072830, 3090974933637, -986437350072830, -932052869826067, 3090974933637,
   -932052869826067, -986437350072830, 3090974933637, -640599464469824, 623868058857117, 8631214056178, 623868058857117, -640599464469824, 8631214056178,
   -983268594387293, 623868058857116, 8631214056178, 623868058857116, -983268594387293, 8631214056178, -983268594387293, -640599464469824, 8631214056178,
   -640599464469824, -983268594387293, 8631214056178, -158411570812104, 140890429939385, 10897457944070, 140890429939385, -158411570812104, 10897457944070,
   -982478859127282, 140890429939385, 10897457944070, 140890429939385, -982478859127282, 10897457944070, -982478859127282, -158411570812104, 10897457944070,
   -158411570812104, -982478859127282, 10897457944070, -814806216564922, 793459188393794, 8001551263950, 793459188393794, -814806216564922, 8001551263950,
   -978652971828873, 793459188393795, 8001551263950, 793459188393795, -978652971828873, 8001551263950, -978652971828873, -814806216564922, 8001551263950,
   -814806216564922, -978652971828873, 8001551263950, -363960589331557, 295112627690632, 17745434082141, 295112627690632, -363960589331557, 17745434082141,
   -931152038359075, 295112627690632, 17745434082141, 295112627690632, -931152038359075, 17745434082141, -931152038359075, -363960589331557, 17745434082141,
   -363960589331557, -931152038359075, 17745434082141, -570323384314285, 491002374048080, 17950672107247, 491002374048080, -570323384314285, 17950672107247,
   -920678989733795, 491002374048080, 17950672107247, 491002374048080, -920678989733795, 17950672107247, -920678989733795, -570323384314285, 17950672107247,
   -570323384314285, -920678989733795, 17950672107247, -134636707603169, 47157943371727, 19228676191702, 47157943371727, -134636707603169, 19228676191702,
   -912521235768557, 47157943371727, 19228676191702, 47157943371727, -912521235768557, 19228676191702, -912521235768557, -134636707603169, 19228676191702,
   -134636707603169, -912521235768557, 19228676191702, -752804662376914, 649201355096884, 19100455942623, 649201355096884, -752804662376914, 19100455942623,
   -896396692719970, 649201355096884, 19100455942623, 649201355096884, -896396692719970, 19100455942623, -896396692719970, -752804662376914, 19100455942623,
   -752804662376914, -896396692719970, 19100455942623, -328638645186542, 161176552903625, 28083739150636, 161176552903625, -328638645186542, 28083739150636,
   -832537907717083, 161176552903625, 28083739150636, 161176552903625, -832537907717083, 28083739150636, -832537907717083, -328638645186542, 28083739150636,
   -328638645186542, -832537907717083, 28083739150636, -559939069093864, 361861076343249, 31874915632607, 361861076343249, -559939069093864, 31874915632607,
   -801922007249385, 361861076343249, 31874915632607, 361861076343249, -801922007249385, 31874915632607, -801922007249385, -559939069093864, 31874915632607,
   -559939069093864, -801922007249385, 31874915632607, -388196135129182, 68617773977901, 40865211838584, 68617773977901, -388196135129182, 40865211838584,
   -680421638848718, 68617773977901, 40865211838584, 68617773977901, -680421638848718, 40865211838584, -680421638848718, -388196135129182, 40865211838584,
   -388196135129182, -680421638848718, 40865211838584]

/-- include/TriangleCubatureRules.hpp lines 936-1041: right-hand side of `CubatureRules_[22] = ...`. -/
def vals22 : List Int :=
  [-333333333333333, -333333333333333, 49993627092845, -23538910955543, -23538910955543, 8227775544650, -952922178088914, -23538910955543, 8227775544650,
   -23538910955543, -952922178088914, 8227775544650, -112255282121933, -112255282121933, 37662477311797, -775489435756134, -112255282121933, 37662477311797,
   -112255282121933, -775489435756134, 37662477311797, -212088442838205, -212088442838205, 46916667243031, -575823114323591, -212088442838205, 46916667243031,
   -212088442838205, -575823114323591, 46916667243031, -467032671065063, -467032671065063, 47191879210718, -65934657869875, -467032671065063, 47191879210718,
   -467032671065063, -65934657869875, 47191879210718, -602458675644835, -602458675644835, 39689081561875, 204917351289670, -602458675644835, 39689081561875,
   -602458675644835, 204917351289670, 39689081561875, -729340080155585, -729340080155585, 29223692430473, 458680160311169, -729340080155585, 29223692430473,
   -729340080155585, 458680160311169, 29223692430473, -835032835950571, -835032835950571, 18566057479642, 670065671901142, -835032835950571, 18566057479642,
   -835032835950571, 670065671901142, 18566057479642, -916650365183127, -916650365183127, 8784960019827, 833300730366254, -916650365183127, 8784960019827,
   -916650365183127, 833300730366254, 8784960019827, -982250743407210, -982250743407210, 2061552741126, 964501486814420, -982250743407210, 2061552741126,
   -982250743407210, 964501486814420, 2061552741126, -105601712649592, 98292547426640, 4448377162851, 98292547426640, -105601712649592, 4448377162851,
   -992690834777047, 98292547426640, 4448377162851, 98292547426640, -992690834777047, 4448377162851, -992690834777047, -105601712649592, 4448377162851,
   -105601712649592, -992690834777047, 4448377162851, -775227228315076, 773362241907340, 2318973002522, 773362241907340, -775227228315076, 2318973002522,
   -998135013592264, 773362241907340, 2318973002522, 773362241907340, -998135013592264, 2318973002522, -998135013592264, -775227228315076, 2318973002522,
   -775227228315076, -998135013592264, 2318973002522, -399056075238285, 392811698367078, 5127488569570, 392811698367078, -399056075238285, 5127488569570,
   -993755623128794, 392811698367078, 5127488569570, 392811698367078, -993755623128794, 5127488569570, -993755623128794, -399056075238285, 5127488569570,
   -399056075238285, -993755623128794, 5127488569570, -907633572417643, 891831436837026, 4167853762943, 891831436837026, -907633572417643, 4167853762943,
   -984197864419384, 891831436837026, 4167853762943, 891831436837026, -984197864419384, 4167853762943, -984197864419383, -907633572417642, 4167853762943,
   -907633572417642, -984197864419383, 4167853762943, -610008084404048, 588812673873118, 10245094978581, 588812673873118, -610008084404048, 10245094978581,
   -978804589469070, 588812673873118, 10245094978581, 588812673873118, -978804589469070, 10245094978581, -978804589469070, -610008084404048, 10245094978581,
   -610008084404048, -978804589469070, 10245094978581, -243171741354056, 207960140279272, 12823590639281, 207960140279272, -243171741354056, 12823590639281,
   -964788398925216, 207960140279272, 12823590639281, 207960140279272, -964788398925216, 12823590639281, -964788398925216, -243171741354055, 12823590639281,
   -243171741354055, -964788398925216, 12823590639281, -789506197850739, 739925802118596, 11635516794817, 739925802118596, -789506197850739, 11635516794817,
   -950419604267857, 739925802118596, 11635516794817, 739925802118596, -950419604267857, 11635516794817, -950419604267857, -789506197850739, 11635516794817,
   -789506197850739, -950419604267857, 11635516794817, -455884762353173, 385117794610837, 19844273900077, 385117794610837, -455884762353173, 19844273900077,
   -929233032257664, 385117794610837, 19844273900077, 385117794610837, -929233032257664, 19844273900077, -929233032257664, -455884762353173, 19844273900077,
   -455884762353173, -929233032257664, 19844273900077, -112482048478797, 19740291196956, 11754407449188, 19740291196956, -112482048478797, 11754407449188,
   -907258242718159, 19740291196956, 11754407449188, 19740291196956, -907258242718159, 11754407449188, -907258242718159, -112482048478797, 11754407449188,
   -112482048478797, -907258242718159, 11754407449188, -664205324633765, 550530931038120, 21600208906600, 550530931038120, -664205324633765, 21600208906600,
   -886325606404355, 550530931038120, 21600208906600, 550530931038120, -886325606404355, 21600208906600, -886325606404354, -664205324633765, 21600208906600,
   -664205324633765, -886325606404354, 21600208906600, -295594853518405, 152149871080588, 28495796363599, 152149871080588, -295594853518405, 28495796363599,
   -856555017562183, 152149871080588, 28495796363599, 152149871080588, -856555017562183, 28495796363599, -856555017562183, -295594853518405, 28495796363599,
   -295594853518405, -856555017562183, 28495796363599, -525935282564036, 319991164262401, 31988381018369, 319991164262401, -525935282564036, 31988381018369,
   -794055881698366, 319991164262401, 31988381018369, 319991164262401, -794055881698366, 31988381018369, -794055881698366, -525935282564036, 31988381018369,
   -525935282564036, -794055881698366, 31988381018369, -368673747852155, 56982821883363, 41389027831224, 56982821883363, -368673747852155, 41389027831224,
   -688309074031208, 56982821883363, 41389027831224, 56982821883363, -688309074031208, 41389027831224, -688309074031208, -368673747852155, 41389027831224,
   -368673747852155, -688309074031208, 41389027831224]

/-- include/TriangleCubatureRules.hpp lines 1044-1161: right-hand side of `CubatureRules_[23] = ...`. -/
def vals23 : List Int :=
  [-333333333333333, -333333333333333, 31330242175782, -31382760283421, -31382760283421, 14717653847587, -937234479433159, -31382760283421, 14717653847587,
   -31382760283421, -937234479433159, 14717653847587, -120096233850662, -120096233850662, 30963348398970, -759807532298676, -120096233850662, 30963348398970,
   -120096233850662, -759807532298676, 30963348398970, -217343938317536, -217343938317536, 37986940843648, -565312123364928, -217343938317536, 37986940843648,
   -217343938317536, -565312123364928, 37986940843648, -429818284439074, -429818284439074, 33466254011049, -140363431121852, -429818284439074, 33466254011049,
   -429818284439074, -140363431121852, 33466254011049, -522392801883300, -522392801883300, 29203686754054, 44785603766601, -522392801883300, 29203686754054,
   -522392801883300, 44785603766601, 29203686754054, -704274510649686, -704274510649686, 22147482605586, 408549021299373, -704274510649686, 22147482605586,
   -704274510649686, 408549021299373, 22147482605586, -843105586121546, -843105586121546, 15827753677335, 686211172243092, -843105586121546, 15827753677335,
   -843105586121546, 686211172243092, 15827753677335, -936285318267427, -936285318267427, 5897827695084, 872570636534854, -936285318267427, 5897827695084,
   -936285318267427, 872570636534854, 5897827695084, -983008712604130, -983008712604130, 1905131297570, 966017425208259, -983008712604130, 1905131297570,
   -983008712604130, 966017425208259, 1905131297570, -133936561710478, 120327965916980, 8627443386199, 120327965916980, -133936561710478, 8627443386199,
   -986391404206501, 120327965916980, 8627443386199, 120327965916980, -986391404206501, 8627443386199, -986391404206501, -133936561710478, 8627443386199,
   -133936561710478, -986391404206501, 8627443386199, -589559941056661, 574991625876557, 7292016855628, 574991625876557, -589559941056661, 7292016855628,
   -985431684819897, 574991625876557, 7292016855628, 574991625876557, -985431684819897, 7292016855628, -985431684819897, -589559941056661, 7292016855628,
   -589559941056661, -985431684819897, 7292016855628, -375079684130172, 361371712031196, 8117703702749, 361371712031196, -375079684130172, 8117703702749,
   -986292027901024, 361371712031196, 8117703702749, 361371712031196, -986292027901024, 8117703702749, -986292027901024, -375079684130172, 8117703702749,
   -375079684130172, -986292027901024, 8117703702749, -906832105591067, 897244066241012, 2858359515171, 897244066241012, -906832105591067, 2858359515171,
   -990411960649945, 897244066241012, 2858359515171, 897244066241012, -990411960649945, 2858359515171, -990411960649945, -906832105591067, 2858359515171,
   -906832105591067, -990411960649945, 2858359515171, -768281564078976, 757477531703546, 4596788633153, 757477531703546, -768281564078976, 4596788633153,
   -989195967624570, 757477531703546, 4596788633153, 757477531703546, -989195967624570, 4596788633153, -989195967624570, -768281564078975, 4596788633153,
   -768281564078975, -989195967624570, 4596788633153, -498678726055310, 424585822926150, 17097477649229, 424585822926150, -498678726055310, 17097477649229,
   -925907096870839, 424585822926150, 17097477649229, 424585822926150, -925907096870839, 17097477649229, -925907096870839, -498678726055310, 17097477649229,
   -498678726055310, -925907096870839, 17097477649229, -279607664483490, 208396882316209, 18575372163249, 208396882316209, -279607664483490, 18575372163249,
   -928789217832719, 208396882316209, 18575372163249, 208396882316209, -928789217832719, 18575372163249, -928789217832719, -279607664483490, 18575372163249,
   -279607664483490, -928789217832719, 18575372163249, -837737372642508, 780926628976898, 8711688567270, 780926628976898, -837737372642508, 8711688567270,
   -943189256334389, 780926628976898, 8711688567270, 780926628976898, -943189256334389, 8711688567270, -943189256334389, -837737372642508, 8711688567270,
   -837737372642508, -943189256334389, 8711688567270, -693711793201882, 625024627714433, 13292883787775, 625024627714433, -693711793201882, 13292883787775,
   -931312834512551, 625024627714433, 13292883787775, 625024627714433, -931312834512551, 13292883787775, -931312834512551, -693711793201882, 13292883787775,
   -693711793201882, -931312834512551, 13292883787775, 4700993829951, -135567929734853, 12281001510740, -135567929734853, 4700993829951, 12281001510740,
   -869133064095098, -135567929734853, 12281001510740, -135567929734853, -869133064095098, 12281001510740, -869133064095098, 4700993829951, 12281001510740,
   4700993829951, -869133064095098, 12281001510740, -521976982650353, 349105045944945, 21820885555420, 349105045944945, -521976982650353, 21820885555420,
   -827128063294591, 349105045944945, 21820885555420, 349105045944945, -827128063294591, 21820885555420, -827128063294591, -521976982650353, 21820885555420,
   -521976982650353, -827128063294591, 21820885555420, -326968721136217, 144732602043697, 27371090249668, 144732602043697, -326968721136217, 27371090249668,
   -817763880907480, 144732602043697, 27371090249668, 144732602043697, -817763880907480, 27371090249668, -817763880907480, -326968721136217, 27371090249668,
   -326968721136217, -817763880907480, 27371090249668, -696116803866709, 531011336134871, 18737543889147, 531011336134871, -696116803866709, 18737543889147,
   -834894532268162, 531011336134871, 18737543889147, 531011336134871, -834894532268162, 18737543889147, -834894532268162, -696116803866709, 18737543889147,
   -696116803866709, -834894532268162, 18737543889147, -536404917748559, 226734558438523, 28700757241388, 226734558438523, -536404917748559, 28700757241388,
   -690329640689964, 226734558438523, 28700757241388, 226734558438523, -690329640689964, 28700757241388, -690329640689964, -536404917748559, 28700757241388,
   -536404917748559, -690329640689964, 28700757241388, -344489563789357, 9282127094255, 33972574031807, 9282127094255, -344489563789357, 33972574031807,
   -664792563304898, 9282127094255, 33972574031807, 9282127094255, -664792563304898, 33972574031807, -664792563304898, -344489563789357, 33972574031807,
   -344489563789357, -664792563304898, 33972574031807]

/-- include/TriangleCubatureRules.hpp lines 1164-1289: right-hand side of `CubatureRules_[24] = ...`. -/
def vals24 : List Int :=
  [-27946483073174, -27946483073174, 16011163760041, -944107033853652, -27946483073174, 16011163760041, -27946483073174, -944107033853652, 16011163760041,
   -131178601327651, -131178601327651, 31894153664781, -737642797344697, -131178601327651, 31894153664781, -131178601327651, -737642797344697, 31894153664781,
   -220221729512072, -220221729512072, 26218282461591, -559556540975855, -220221729512072, 26218282461591, -220221729512072, -559556540975855, 26218282461591,
   -403113531960391, -403113531960391, 39166001931271, -193772936079218, -403113531960391, 39166001931271, -403113531960391, -193772936079218, 39166001931271,
   -531911655325256, -531911655325256, 32941770883075, 63823310650513, -531911655325256, 32941770883075, -531911655325256, 63823310650513, 32941770883075,
   -697063330781965, -697063330781965, 17094558148184, 394126661563930, -697063330781965, 17094558148184, -697063330781965, 394126661563930, 17094558148184,
   -774532212908013, -774532212908013, 16323771714453, 549064425816026, -774532212908013, 16323771714453, -774532212908013, 549064425816026, 16323771714453,
   -844568615816947, -844568615816947, 12242293079968, 689137231633895, -844568615816948, 12242293079968, -844568615816948, 689137231633895, 12242293079968,
   -930213812771406, -930213812771406, 5816996529873, 860427625542812, -930213812771406, 5816996529873, -930213812771406, 860427625542812, 5816996529873,
   -985483630758135, -985483630758135, 1384550491324, 970967261516271, -985483630758135, 1384550491324, -985483630758135, 970967261516271, 1384550491324,
   -545571095693272, 542986390284387, 2496578398555, 542986390284387, -545571095693272, 2496578398555, -997415294591116, 542986390284387, 2496578398555,
   542986390284387, -997415294591116, 2496578398555, -997415294591116, -545571095693272, 2496578398555, -545571095693272, -997415294591116, 2496578398555,
   -129978890292857, 119179487748624, 6809505817606, 119179487748624, -129978890292857, 6809505817606, -989200597455768, 119179487748624, 6809505817606,
   119179487748624, -989200597455768, 6809505817606, -989200597455768, -129978890292857, 6809505817606, -129978890292857, -989200597455768, 6809505817606,
   -359380801455591, 346612795387641, 6719308652128, 346612795387641, -359380801455591, 6719308652128, -987231993932050, 346612795387641, 6719308652128,
   346612795387641, -987231993932050, 6719308652128, -987231993932050, -359380801455591, 6719308652128, -359380801455591, -987231993932050, 6719308652128,
   -816499355439990, 806442932436004, 3432313078994, 806442932436004, -816499355439990, 3432313078994, -989943576996014, 806442932436004, 3432313078994,
   806442932436004, -989943576996014, 3432313078994, -989943576996014, -816499355439990, 3432313078994, -816499355439990, -989943576996014, 3432313078994,
   -923978328282551, 910324811038988, 2961712633431, 910324811038988, -923978328282551, 2961712633431, -986346482756436, 910324811038988, 2961712633431,
   910324811038988, -986346482756436, 2961712633431, -986346482756436, -923978328282551, 2961712633431, -923978328282551, -986346482756436, 2961712633431,
   -685149563029377, 665117163749518, 7022625221457, 665117163749518, -685149563029377, 7022625221457, -979967600720141, 665117163749517, 7022625221457,
   665117163749517, -979967600720141, 7022625221457, -979967600720141, -685149563029376, 7022625221457, -685149563029376, -979967600720141, 7022625221457,
   -520220680442934, 468705054096154, 14787100299413, 468705054096154, -520220680442934, 14787100299413, -948484373653220, 468705054096154, 14787100299413,
   468705054096154, -948484373653220, 14787100299413, -948484373653220, -520220680442934, 14787100299413, -520220680442934, -948484373653220, 14787100299413,
   -276113763747879, 215657967508047, 15966174954753, 215657967508047, -276113763747879, 15966174954753, -939544203760168, 215657967508047, 15966174954753,
   215657967508047, -939544203760168, 15966174954753, -939544203760168, -276113763747879, 15966174954753, -276113763747879, -939544203760168, 15966174954753,
   -832896078090343, 771886097876019, 8711925226316, 771886097876019, -832896078090343, 8711925226316, -938990019785676, 771886097876019, 8711925226316,
   771886097876019, -938990019785676, 8711925226316, -938990019785676, -832896078090343, 8711925226316, -832896078090343, -938990019785676, 8711925226316,
   -703113558535164, 611200463810025, 14730113402836, 611200463810025, -703113558535164, 14730113402836, -908086905274861, 611200463810025, 14730113402836,
   611200463810025, -908086905274861, 14730113402836, -908086905274861, -703113558535164, 14730113402836, -703113558535164, -908086905274861, 14730113402836,
   -432520582544930, 297634981464375, 21927145692839, 297634981464375, -432520582544930, 21927145692839, -865114398919445, 297634981464375, 21927145692839,
   297634981464375, -865114398919445, 21927145692839, -865114398919445, -432520582544930, 21927145692839, -432520582544930, -865114398919445, 21927145692839,
   -186201249762425, 46111066930604, 23499923487082, 46111066930604, -186201249762425, 23499923487082, -859909817168179, 46111066930604, 23499923487082,
   46111066930604, -859909817168179, 23499923487082, -859909817168179, -186201249762425, 23499923487082, -186201249762425, -859909817168179, 23499923487082,
   -611772025950215, 443948976669982, 20031201427597, 443948976669982, -611772025950215, 20031201427597, -832176950719767, 443948976669982, 20031201427597,
   443948976669982, -832176950719767, 20031201427597, -832176950719767, -611772025950215, 20031201427597, -611772025950215, -832176950719767, 20031201427597,
   -351731305998594, 110980234644288, 26619281575257, 110980234644288, -351731305998594, 26619281575257, -759248928645695, 110980234644288, 26619281575257,
   110980234644288, -759248928645695, 26619281575257, -759248928645695, -351731305998594, 26619281575257, -351731305998594, -759248928645695, 26619281575257,
   -541445032888038, 245311234573305, 28308893010452, 245311234573305, -541445032888038, 28308893010452, -703866201685267, 245311234573305, 28308893010452,
   245311234573305, -703866201685267, 28308893010452, -703866201685267, -541445032888038, 28308893010452, -541445032888038, -703866201685267, 28308893010452,
   -348763754808032, -34779976926618, 29762759122336, -34779976926618, -348763754808032, 29762759122336, -616456268265350, -34779976926618, 29762759122336,
   -34779976926618, -616456268265350, 29762759122336, -616456268265350, -348763754808032, 29762759122336, -348763754808032, -616456268265350, 29762759122336]

/-- include/TriangleCubatureRules.hpp lines 1292-1429: right-hand side of `CubatureRules_[25] = ...`. -/
def vals25 : List Int :=
  [-27285103318006, -27285103318006, 5361616431413, -945429793363989, -27285103318006, 5361616431413, -27285103318006, -945429793363989, 5361616431413,
   -68629018183452, -68629018183452, 12732191427031, -862741963633096, -68629018183452, 12732191427031, -68629018183452, -862741963633096, 12732191427031,
   -136174624247252, -136174624247252, 29707048808635, -727650751505495, -136174624247252, 29707048808635, -136174624247252, -727650751505495, 29707048808635,
   -214440393597162, -214440393597162, 26709487358142, -571119212805675, -214440393597162, 26709487358142, -214440393597162, -571119212805675, 26709487358142,
   -392927303733924, -392927303733924, 31691197689589, -214145392532152, -392927303733924, 31691197689589, -392927303733924, -214145392532152, 31691197689589,
   -541283541373341, -541283541373341, 28281596577704, 82567082746682, -541283541373341, 28281596577704, -541283541373341, 82567082746682, 28281596577704,
   -710171670270578, -710171670270578, 22460561269283, 420343340541156, -710171670270578, 22460561269283, -710171670270578, 420343340541156, 22460561269283,
   -832251071789951, -832251071789951, 13160382318625, 664502143579902, -832251071789951, 13160382318625, -832251071789951, 664502143579902, 13160382318625,
   -931928355163542, -931928355163542, 5828465225510, 863856710327084, -931928355163542, 5828465225510, -931928355163542, 863856710327084, 5828465225510,
   -987078078630829, -987078078630829, 1098762787251, 974156157261657, -987078078630829, 1098762787251, -987078078630829, 974156157261657, 1098762787251,
   -932113855389598, 919072286067742, 2557622023150, 919072286067742, -932113855389598, 2557622023150, -986958430678145, 919072286067742, 2557622023150,
   919072286067742, -986958430678145, 2557622023150, -986958430678145, -932113855389597, 2557622023150, -932113855389597, -986958430678145, 2557622023150,
   -331832115907669, 318412220533634, 7088900226242, 318412220533634, -331832115907669, 7088900226242, -986580104625965, 318412220533634, 7088900226242,
   318412220533634, -986580104625965, 7088900226242, -986580104625965, -331832115907669, 7088900226242, -331832115907669, -986580104625965, 7088900226242,
   -117284648816543, 105635324925259, 6588000446609, 105635324925259, -117284648816543, 6588000446609, -988350676108717, 105635324925259, 6588000446609,
   105635324925259, -988350676108717, 6588000446609, -988350676108717, -117284648816543, 6588000446609, -117284648816543, -988350676108717, 6588000446609,
   -528179583523521, 515363521190658, 6069708653929, 515363521190658, -528179583523521, 6069708653929, -987183937667137, 515363521190658, 6069708653929,
   515363521190658, -987183937667137, 6069708653929, -987183937667137, -528179583523521, 6069708653929, -528179583523521, -987183937667137, 6069708653929,
   -698183069548291, 685666877859863, 4942128706706, 685666877859863, -698183069548291, 4942128706706, -987483808311572, 685666877859863, 4942128706706,
   685666877859863, -987483808311572, 4942128706706, -987483808311572, -698183069548291, 4942128706706, -698183069548291, -987483808311572, 4942128706706,
   -834663613179069, 821127985248516, 4076340070443, 821127985248516, -834663613179069, 4076340070443, -986464372069447, 821127985248516, 4076340070443,
   821127985248516, -986464372069447, 4076340070443, -986464372069447, -834663613179069, 4076340070443, -834663613179069, -986464372069447, 4076340070443,
   -700166221086294, 634916644768372, 11120280239045, 634916644768372, -700166221086294, 11120280239045, -934750423682077, 634916644768372, 11120280239045,
   634916644768372, -934750423682077, 11120280239045, -934750423682078, -700166221086294, 11120280239045, -700166221086294, -934750423682078, 11120280239045,
   -160245113591115, 96801406370527, 12755358640694, 96801406370527, -160245113591115, 12755358640694, -936556292779412, 96801406370527, 12755358640694,
   96801406370527, -936556292779412, 12755358640694, -936556292779412, -160245113591115, 12755358640694, -160245113591115, -936556292779412, 12755358640694,
   -348814552390868, 279444440434072, 14549157045387, 279444440434072, -348814552390868, 14549157045387, -930629888043204, 279444440434072, 14549157045387,
   279444440434072, -930629888043204, 14549157045387, -930629888043204, -348814552390868, 14549157045387, -348814552390868, -930629888043204, 14549157045387,
   -835149343614232, 764834325997890, 9121880355576, 764834325997890, -835149343614232, 9121880355576, -929684982383659, 764834325997890, 9121880355576,
   764834325997890, -929684982383659, 9121880355576, -929684982383659, -835149343614232, 9121880355576, -835149343614232, -929684982383659, 9121880355576,
   -534046892746188, 466663082505331, 13582808914065, 466663082505331, -534046892746188, 13582808914065, -932616189759143, 466663082505331, 13582808914065,
   466663082505331, -932616189759143, 13582808914065, -932616189759143, -534046892746188, 13582808914065, -534046892746188, -932616189759143, 13582808914065,
   -704373154566392, 546726033293271, 15585248954434, 546726033293271, -704373154566392, 15585248954434, -842352878726879, 546726033293271, 15585248954434,
   546726033293271, -842352878726879, 15585248954434, -842352878726879, -704373154566392, 15585248954434, -704373154566392, -842352878726879, 15585248954434,
   -220224863280788, 60870104244893, 18960151369388, 60870104244893, -220224863280788, 18960151369388, -840645240964104, 60870104244893, 18960151369388,
   60870104244893, -840645240964104, 18960151369388, -840645240964104, -220224863280788, 18960151369388, -220224863280788, -840645240964104, 18960151369388,
   -394989254221112, 230609434358343, 19206200353033, 230609434358343, -394989254221112, 19206200353033, -835620180137232, 230609434358343, 19206200353033,
   230609434358343, -835620180137232, 19206200353033, -835620180137232, -394989254221112, 19206200353033, -394989254221112, -835620180137232, 19206200353033,
   -557563751773578, 393274056332418, 18121839059318, 393274056332418, -557563751773578, 18121839059318, -835710304558840, 393274056332418, 18121839059318,
   393274056332418, -835710304558840, 18121839059318, -835710304558840, -557563751773578, 18121839059318, -557563751773578, -835710304558840, 18121839059318,
   -350522450436603, 60630141977535, 28403705951863, 60630141977535, -350522450436603, 28403705951863, -710107691540932, 60630141977535, 28403705951863,
   60630141977535, -710107691540932, 28403705951863, -710107691540932, -350522450436603, 28403705951863, -350522450436603, -710107691540932, 28403705951863,
   -544246685468649, 246315777233803, 26986162760930, 246315777233803, -544246685468649, 26986162760930, -702069091765154, 246315777233803, 26986162760930,
   246315777233803, -702069091765154, 26986162760930, -702069091765154, -544246685468649, 26986162760930, -544246685468649, -702069091765154, 26986162760930,
   -373996265063702, -64072130507071, 25102184615930, -64072130507071, -373996265063702, 25102184615930, -561931604429227, -64072130507071, 25102184615930,
   -64072130507071, -561931604429227, 25102184615930, -561931604429227, -373996265063702, 25102184615930, -373996265063702, -561931604429227, 25102184615930]

/-- include/TriangleCubatureRules.hpp lines 1432-1576: right-hand side of `CubatureRules_[26] = ...`. -/
def vals26 : List Int :=
  [-333333333333333, -333333333333333, 29215421142604, -29244446609137, -29244446609137, 13615273717612, -941511106781726, -29244446609137, 13615273717612,
   -29244446609137, -941511106781726, 13615273717612, -132843721814340, -132843721814340, 30951102870660, -734312556371321, -132843721814340, 30951102870660,
   -132843721814340, -734312556371321, 30951102870660, -224940014502969, -224940014502969, 31733186724762, -550119970994063, -224940014502969, 31733186724762,
   -224940014502969, -550119970994063, 31733186724762, -427786783949924, -427786783949924, 31559855928489, -144426432100151, -427786783949924, 31559855928489,
   -427786783949924, -144426432100151, 31559855928489, -532776206162091, -532776206162091, 27863700370354, 65552412324182, -532776206162091, 27863700370354,
   -532776206162091, 65552412324182, 27863700370354, -690368113175391, -690368113175391, 19750305737275, 380736226350782, -690368113175391, 19750305737275,
   -690368113175391, 380736226350782, 19750305737275, -781499070170348, -781499070170348, 15635498945203, 562998140340695, -781499070170348, 15635498945203,
   -781499070170348, 562998140340695, 15635498945203, -862704525220276, -862704525220276, 10432865446986, 725409050440551, -862704525220276, 10432865446986,
   -862704525220276, 725409050440551, 10432865446986, -932961091535336, -932961091535336, 5852724472600, 865922183070671, -932961091535336, 5852724472600,
   -932961091535336, 865922183070671, 5852724472600, -986811381964774, -986811381964774, 1134879007165, 973622763929549, -986811381964774, 1134879007165,
   -986811381964774, 973622763929549, 1134879007165, -717055503863097, 716419063026126, 1375795459783, 716419063026126, -717055503863097, 1375795459783,
   -999363559163030, 716419063026126, 1375795459783, 716419063026126, -999363559163030, 1375795459783, -999363559163030, -717055503863097, 1375795459783,
   -717055503863097, -999363559163030, 1375795459783, -838822221132805, 827544031058903, 3088879415937, 827544031058903, -838822221132805, 3088879415937,
   -988721809926098, 827544031058903, 3088879415937, 827544031058903, -988721809926098, 3088879415937, -988721809926098, -838822221132805, 3088879415937,
   -838822221132805, -988721809926098, 3088879415937, -537630806497654, 526128943172145, 5625149324346, 526128943172145, -537630806497654, 5625149324346,
   -988498136674491, 526128943172145, 5625149324346, 526128943172145, -988498136674491, 5625149324346, -988498136674491, -537630806497654, 5625149324346,
   -537630806497654, -988498136674491, 5625149324346, -113842988120976, 103273580134309, 5913105372899, 103273580134309, -113842988120976, 5913105372899,
   -989430592013333, 103273580134310, 5913105372899, 103273580134310, -989430592013333, 5913105372899, -989430592013333, -113842988120976, 5913105372899,
   -113842988120976, -989430592013333, 5913105372899, -330849908839651, 320515152715889, 5565783438844, 320515152715889, -330849908839651, 5565783438844,
   -989665243876238, 320515152715889, 5565783438844, 320515152715889, -989665243876238, 5565783438844, -989665243876238, -330849908839651, 5565783438844,
   -330849908839651, -989665243876238, 5565783438844, -931869179489789, 919222453867072, 2449540456172, 919222453867072, -931869179489789, 2449540456172,
   -987353274377283, 919222453867072, 2449540456172, 919222453867072, -987353274377283, 2449540456172, -987353274377283, -931869179489789, 2449540456172,
   -931869179489789, -987353274377283, 2449540456172, -695123977280935, 663705924287710, 7906643758942, 663705924287710, -695123977280935, 7906643758942,
   -968581947006775, 663705924287710, 7906643758942, 663705924287710, -968581947006775, 7906643758942, -968581947006775, -695123977280935, 7906643758942,
   -695123977280935, -968581947006775, 7906643758942, -831869809255826, 777736654895860, 7221969465327, 777736654895860, -831869809255826, 7221969465327,
   -945866845640035, 777736654895860, 7221969465327, 777736654895860, -945866845640035, 7221969465327, -945866845640035, -831869809255826, 7221969465327,
   -831869809255826, -945866845640035, 7221969465327, -423211420319719, 374995160760160, 8707930088036, 374995160760160, -423211420319719, 8707930088036,
   -951783740440441, 374995160760160, 8707930088036, 374995160760160, -951783740440441, 8707930088036, -951783740440441, -423211420319719, 8707930088036,
   -423211420319719, -951783740440441, 8707930088036, -223962554104902, 171509638849087, 11256464740666, 171509638849087, -223962554104902, 11256464740666,
   -947547084744185, 171509638849087, 11256464740666, 171509638849087, -947547084744185, 11256464740666, -947547084744185, -223962554104902, 11256464740666,
   -223962554104902, -947547084744185, 11256464740666, -566926820194262, 490923426439871, 13269437724243, 490923426439871, -566926820194262, 13269437724243,
   -923996606245609, 490923426439871, 13269437724243, 490923426439871, -923996606245609, 13269437724243, -923996606245609, -566926820194262, 13269437724243,
   -566926820194262, -923996606245609, 13269437724243, -350787336349322, 245677528944182, 13046146795576, 245677528944182, -350787336349322, 13046146795576,
   -894890192594860, 245677528944182, 13046146795576, 245677528944182, -894890192594860, 13046146795576, -894890192594860, -350787336349322, 13046146795576,
   -350787336349322, -894890192594860, 13046146795576, -729613610936203, 622255871516285, 12947418329903, 622255871516285, -729613610936203, 12947418329903,
   -892642260580081, 622255871516285, 12947418329903, 622255871516285, -892642260580081, 12947418329903, -892642260580081, -729613610936203, 12947418329903,
   -729613610936203, -892642260580081, 12947418329903, -176209680235251, 35410146457445, 21313811627966, 35410146457445, -176209680235251, 21313811627966,
   -859200466222194, 35410146457445, 21313811627966, 35410146457445, -859200466222194, 21313811627966, -859200466222194, -176209680235251, 21313811627966,
   -176209680235251, -859200466222194, 21313811627966, -469171656648510, 304686011244002, 17176891528936, 304686011244002, -469171656648510, 17176891528936,
   -835514354595492, 304686011244002, 17176891528936, 304686011244002, -835514354595492, 17176891528936, -835514354595492, -469171656648510, 17176891528936,
   -469171656648510, -835514354595492, 17176891528936, -623736093891471, 443479545725970, 17763399981969, 443479545725970, -623736093891471, 17763399981969,
   -819743451834499, 443479545725970, 17763399981969, 443479545725970, -819743451834499, 17763399981969, -819743451834499, -623736093891471, 17763399981969,
   -623736093891471, -819743451834499, 17763399981969, -336632062394500, 104847567508036, 23828398561090, 104847567508036, -336632062394500, 23828398561090,
   -768215505113536, 104847567508036, 23828398561090, 104847567508036, -768215505113536, 23828398561090, -768215505113536, -336632062394500, 23828398561090,
   -336632062394500, -768215505113536, 23828398561090, -530404689974552, 224195004863778, 26764788789016, 224195004863778, -530404689974552, 26764788789016,
   -693790314889227, 224195004863778, 26764788789016, 224195004863778, -693790314889227, 26764788789016, -693790314889227, -530404689974552, 26764788789016,
   -530404689974552, -693790314889227, 26764788789016, -350831684137242, -19508133770036, 28977845006028, -19508133770036, -350831684137242, 28977845006028,
   -629660182092722, -19508133770036, 28977845006028, -19508133770036, -629660182092722, 28977845006028, -629660182092722, -350831684137242, 28977845006028,
   -350831684137242, -629660182092722, 28977845006028]

/-- include/TriangleCubatureRules.hpp lines 1579-1803: right-hand side of `CubatureRules_[27] = ...`. -/
def vals27 : List Int :=
  [-988064607832230, 987992518020485, 5678109445, -937649986705898, 937273392400706, 67869690329, -849117911767581, 848206583410427, 250117104238,
   -726072255922453, 724417731360170, 591434111178, -573547944561595, 570972172608539, 1096877668021, -397788705468703, 394151347077563, 1734258212849,
   -205989917758162, 201194093997435, 2437321168702, -6003740989757, 0, 3114968848543, 193982435778648, -201194093997435, 3665090319212,
   385781223489189, -394151347077563, 3990796070869, 561540462582081, -570972172608539, 4016439454972, 714064773942939, -724417731360170, 3700816722647,
   837110429788067, -848206583410427, 3045376334904, 925642504726384, -937273392400706, 2096114396383, 976057125852715, -987992518020485, 940083783827,
   -988369112325678, 987992518020485, 12991999963, -939240706051164, 937273392400706, 155291655212, -852967326449712, 848206583410427, 572289322752,
   -733060901773317, 724417731360170, 1353251821662, -584427902697520, 570972172608539, 2509749901695, -413152762435777, 394151347077563, 3968131092565,
   -226247286304345, 201194093997435, 5576799256556, -31363303799647, 0, 7127315095696, 163520678705051, -201194093997435, 8386040063107,
   350426154836483, -394151347077563, 9131282674963, 521701295098226, -570972172608539, 9189956930633, 670334294174023, -724417731360170, 8467785129237,
   790240718850418, -848206583410427, 6968081473429, 876514098451870, -937273392400706, 4796088983887, 925642504726384, -987992518020485, 2150992086750,
   -988903846377640, 987992518020485, 19785289042, -942034135439991, 937273392400706, 236490940043, -859727204070395, 848206583410427, 871529379538,
   -745333518414343, 724417731360170, 2060843481789, -603533972474414, 570972172608539, 3822054138805, -440133265559207, 394151347077563, 6042997294437,
   -261820832829464, 201194093997435, 8492809847469, -75896708294786, 0, 10854063244177, 110027416239891, -201194093997435, 12770953436328,
   288339848969634, -394151347077563, 13905870348620, 451740555884842, -570972172608539, 13995224344240, 593540101824770, -724417731360170, 12895441564853,
   707933787480822, -848206583410427, 10611569151594, 790240718850418, -937273392400706, 7303879856139, 837110429788067, -987992518020485, 3275708150100,
   -989647042582769, 987992518020485, 25769562269, -945916562813853, 937273392400706, 308020165519, -869122370464600, 848206583410427, 1135132803359,
   -762390524754508, 724417731360170, 2684167732828, -630088403599617, 570972172608539, 4978075474027, -477631920189938, 394151347077563, 7870766747028,
   -311262465886975, 201194093997435, 11061551425453, -137791134319915, 0, 14136991279319, 35680197247145, -201194093997435, 16633665503545,
   202049651550108, -394151347077563, 18111850228555, 354506134959787, -570972172608539, 18228230300094, 486808256114678, -724417731360170, 16795806403939,
   593540101824770, -848206583410427, 13821152243283, 670334294174023, -937273392400706, 9513016785380, 714064773942939, -987992518020485, 4266481271556,
   -990568289973542, 987992518020485, 30699031605, -950729122489687, 937273392400706, 366941459749, -880768383276303, 848206583410427, 1352272787635,
   -783533962351248, 724417731360170, 3197623195991, -663004610946658, 570972172608539, 5930333418609, -524114312723242, 394151347077563, 9376368701824,
   -372549075177309, 201194093997435, 13177519790991, -214513913695731, 0, 16841261700383, -56478752214152, -201194093997435, 19815525683434,
   95086485331781, -394151347077563, 21576472924861, 233976783555196, -570972172608539, 21715115384404, 354506134959787, -724417731360170, 20008682578130,
   451740555884842, -848206583410427, 16465005695410, 521701295098226, -937273392400706, 11332765372579, 561540462582081, -987992518020485, 5082618091388,
   -991629876411625, 987992518020485, 34371743072, -956274807758919, 937273392400706, 410840893588, -894188501892071, 848206583410427, 1514053388316,
   -807898304472545, 724417731360170, 3580174265665, -700935138254217, 570972172608539, 6639815197344, -577677642201529, 394151347077563, 10498120595869,
   -443171835046505, 201194093997435, 14754026459451, -302924326461218, 0, 18856084049129, -162676817875932, -201194093997435, 22186177283618,
   -28171010720908, -394151347077563, 24157797330925, 95086485331781, -570972172608539, 24313026429341, 202049651550108, -724417731360170, 22402442709917,
   288339848969634, -848206583410427, 18434814254740, 350426154836483, -937273392400706, 12688572873940, 385781223489189, -987992518020485, 5690682540646,
   -992788341781213, 987992518020485, 36637297986, -962326584707617, 937273392400706, 437920771488, -908833322242456, 848206583410427, 1613849639200,
   -834486103249711, 724417731360170, 3816155355883, -742327153788413, 570972172608539, 7077467309460, -636129088126634, 394151347077563, 11190086338209,
   -520239531729724, 201194093997435, 15726512989614, -399402953001283, 0, 20098950720122, -278566374272841, -201194093997435, 23648541379510,
   -162676817875932, -394151347077563, 25750117404859, -56478752214152, -570972172608539, 25915578164965, 35680197247145, -724417731360170, 23879061573116,
   110027416239891, -848206583410427, 19649913644597, 163520678705051, -937273392400706, 13524918548175, 193982435778648, -987992518020485, 6065774189928,
   -993996259010243, 987992518020485, 37402932316, -968636696200353, 937273392400706, 447072297244, -924103291705214, 848206583410427, 1647575343713,
   -862208865680085, 724417731360170, 3895904128496, -785486086304269, 570972172608539, 7225369917846, -697075673538782, 394151347077563, 11423933120557,
   -600597046998717, 201194093997435, 16055160539688, -500000000000000, 0, 20518972050826, -399402953001283, -201194093997435, 24142740900556,
   -302924326461218, -394151347077563, 26288234977700, -214513913695731, -570972172608539, 26457153482920, -137791134319915, -724417731360170, 24378078430143,
   -75896708294786, -848206583410427, 20060551144640, -31363303799647, -937273392400706, 13807557894147, -6003740989757, -987992518020485, 6192534764769,
   -995204176239272, 987992518020485, 36637297986, -974946807693089, 937273392400706, 437920771488, -939373261167971, 848206583410427, 1613849639200,
   -889931628110459, 724417731360170, 3816155355883, -828645018820126, 570972172608539, 7077467309460, -758022258950930, 394151347077563, 11190086338209,
   -680954562267710, 201194093997435, 15726512989614, -600597046998717, 0, 20098950720122, -520239531729724, -201194093997435, 23648541379510,
   -443171835046505, -394151347077563, 25750117404859, -372549075177309, -570972172608539, 25915578164965, -311262465886975, -724417731360170, 23879061573116,
   -261820832829464, -848206583410427, 19649913644597, -226247286304345, -937273392400706, 13524918548175, -205989917758162, -987992518020485, 6065774189928,
   -996362641608860, 987992518020485, 34371743072, -980998584641787, 937273392400706, 410840893588, -954018081518357, 848206583410427, 1514053388316,
   -916519426887625, 724417731360170, 3580174265665, -870037034354322, 570972172608539, 6639815197344, -816473704876034, 394151347077563, 10498120595869,
   -758022258950930, 201194093997435, 14754026459451, -697075673538782, 0, 18856084049129, -636129088126634, -201194093997435, 22186177283618,
   -577677642201529, -394151347077563, 24157797330925, -524114312723242, -570972172608539, 24313026429341, -477631920189938, -724417731360170, 22402442709917,
   -440133265559207, -848206583410427, 18434814254740, -413152762435777, -937273392400706, 12688572873940, -397788705468703, -987992518020485, 5690682540646,
   -997424228046943, 987992518020485, 30699031605, -986544269911019, 937273392400706, 366941459749, -967438200134124, 848206583410427, 1352272787635,
   -940883769008922, 724417731360170, 3197623195991, -907967561661881, 570972172608539, 5930333418609, -870037034354322, 394151347077563, 9376368701824,
   -828645018820126, 201194093997435, 13177519790991, -785486086304269, 0, 16841261700383, -742327153788413, -201194093997435, 19815525683434,
   -700935138254217, -394151347077563, 21576472924861, -663004610946658, -570972172608539, 21715115384404, -630088403599617, -724417731360170, 20008682578130,
   -603533972474414, -848206583410427, 16465005695410, -584427902697520, -937273392400706, 11332765372579, -573547944561595, -987992518020485, 5082618091388,
   -998345475437717, 987992518020485, 25769562269, -991356829586853, 937273392400706, 308020165519, -979084212945827, 848206583410427, 1135132803359,
   -962027206605662, 724417731360170, 2684167732828, -940883769008922, 570972172608539, 4978075474027, -916519426887625, 394151347077563, 7870766747028,
   -889931628110459, 201194093997435, 11061551425453, -862208865680085, 0, 14136991279319, -834486103249711, -201194093997435, 16633665503545,
   -807898304472545, -394151347077563, 18111850228555, -783533962351248, -570972172608539, 18228230300094, -762390524754508, -724417731360170, 16795806403939,
   -745333518414343, -848206583410427, 13821152243283, -733060901773317, -937273392400706, 9513016785380, -726072255922453, -987992518020485, 4266481271556,
   -999088671642846, 987992518020485, 19785289042, -995239256960715, 937273392400706, 236490940043, -988479379340032, 848206583410427, 871529379538,
   -979084212945827, 724417731360170, 2060843481789, -967438200134124, 570972172608539, 3822054138805, -954018081518357, 394151347077563, 6042997294437,
   -939373261167971, 201194093997435, 8492809847469, -924103291705214, 0, 10854063244177, -908833322242456, -201194093997435, 12770953436328,
   -894188501892071, -394151347077563, 13905870348620, -880768383276303, -570972172608539, 13995224344240, -869122370464600, -724417731360170, 12895441564853,
   -859727204070395, -848206583410427, 10611569151594, -852967326449712, -937273392400706, 7303879856139, -849117911767581, -987992518020485, 3275708150100,
   -999623405694808, 987992518020485, 12991999963, -998032686349542, 937273392400706, 155291655212, -995239256960715, 848206583410427, 572289322752,
   -991356829586853, 724417731360170, 1353251821662, -986544269911019, 570972172608539, 2509749901695, -980998584641787, 394151347077563, 3968131092565,
   -974946807693089, 201194093997435, 5576799256556, -968636696200353, 0, 7127315095696, -962326584707617, -201194093997435, 8386040063107,
   -956274807758919, -394151347077563, 9131282674963, -950729122489687, -570972172608539, 9189956930633, -945916562813853, -724417731360170, 8467785129237,
   -942034135439991, -848206583410427, 6968081473429, -939240706051164, -937273392400706, 4796088983887, -937649986705898, -987992518020485, 2150992086750,
   -999927910188256, 987992518020485, 5678109445, -999623405694808, 937273392400706, 67869690329, -999088671642846, 848206583410427, 250117104238,
   -998345475437717, 724417731360170, 591434111178, -997424228046943, 570972172608539, 1096877668021, -996362641608860, 394151347077563, 1734258212849,
   -995204176239272, 201194093997435, 2437321168702, -993996259010243, 0, 3114968848543, -992788341781213, -201194093997435, 3665090319212,
   -991629876411625, -394151347077563, 3990796070869, -990568289973542, -570972172608539, 4016439454972, -989647042582769, -724417731360170, 3700816722647,
   -988903846377640, -848206583410427, 3045376334904, -988369112325678, -937273392400706, 2096114396383, -988064607832230, -987992518020485, 940083783827]

end Blitzdg.Cub
