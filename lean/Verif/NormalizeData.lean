import Verif.NormalizeTree

/-! The tables of `src/runtime/unicodelib/py_unicodedata_db.h`, written by
`scripts/normalize_data.py`.  Entries that are zero are left out. -/

namespace Verif.Normalize

def classT000 : RTree :=
  .node (.node (.node (.node (.node (.node (.node .nil (nat_lit 160) (nat_lit 160) (nat_lit 34816) .nil) (nat_lit 168) (nat_lit 168) (nat_lit 34816) (.node .nil (nat_lit 170) (nat_lit 170) (nat_lit 34816) .nil)) (nat_lit 175) (nat_lit 175) (nat_lit 34816) (.node (.node .nil (nat_lit 178) (nat_lit 181) (nat_lit 34816) .nil) (nat_lit 184) (nat_lit 186) (nat_lit 34816) .nil)) (nat_lit 188) (nat_lit 190) (nat_lit 34816) (.node (.node (.node .nil (nat_lit 192) (nat_lit 197) (nat_lit 2560) .nil) (nat_lit 199) (nat_lit 207) (nat_lit 2560) (.node .nil (nat_lit 209) (nat_lit 214) (nat_lit 2560) .nil)) (nat_lit 217) (nat_lit 221) (nat_lit 2560) (.node (.node .nil (nat_lit 224) (nat_lit 229) (nat_lit 2560) .nil) (nat_lit 231) (nat_lit 239) (nat_lit 2560) .nil))) (nat_lit 241) (nat_lit 246) (nat_lit 2560) (.node (.node (.node (.node .nil (nat_lit 249) (nat_lit 253) (nat_lit 2560) .nil) (nat_lit 255) (nat_lit 271) (nat_lit 2560) (.node .nil (nat_lit 274) (nat_lit 293) (nat_lit 2560) .nil)) (nat_lit 296) (nat_lit 304) (nat_lit 2560) (.node (.node .nil (nat_lit 306) (nat_lit 307) (nat_lit 34816) .nil) (nat_lit 308) (nat_lit 311) (nat_lit 2560) .nil)) (nat_lit 313) (nat_lit 318) (nat_lit 2560) (.node (.node (.node .nil (nat_lit 319) (nat_lit 320) (nat_lit 34816) .nil) (nat_lit 323) (nat_lit 328) (nat_lit 2560) .nil) (nat_lit 329) (nat_lit 329) (nat_lit 34816) (.node (.node .nil (nat_lit 332) (nat_lit 337) (nat_lit 2560) .nil) (nat_lit 340) (nat_lit 357) (nat_lit 2560) .nil)))) (nat_lit 360) (nat_lit 382) (nat_lit 2560) (.node (.node (.node (.node (.node .nil (nat_lit 383) (nat_lit 383) (nat_lit 34816) .nil) (nat_lit 416) (nat_lit 417) (nat_lit 2560) (.node .nil (nat_lit 431) (nat_lit 432) (nat_lit 2560) .nil)) (nat_lit 452) (nat_lit 460) (nat_lit 34816) (.node (.node .nil (nat_lit 461) (nat_lit 476) (nat_lit 2560) .nil) (nat_lit 478) (nat_lit 483) (nat_lit 2560) .nil)) (nat_lit 486) (nat_lit 496) (nat_lit 2560) (.node (.node (.node .nil (nat_lit 497) (nat_lit 499) (nat_lit 34816) .nil) (nat_lit 500) (nat_lit 501) (nat_lit 2560) (.node .nil (nat_lit 504) (nat_lit 539) (nat_lit 2560) .nil)) (nat_lit 542) (nat_lit 543) (nat_lit 2560) (.node (.node .nil (nat_lit 550) (nat_lit 563) (nat_lit 2560) .nil) (nat_lit 688) (nat_lit 696) (nat_lit 34816) .nil))) (nat_lit 728) (nat_lit 733) (nat_lit 34816) (.node (.node (.node (.node .nil (nat_lit 736) (nat_lit 740) (nat_lit 34816) .nil) (nat_lit 768) (nat_lit 772) (nat_lit 20710) (.node .nil (nat_lit 773) (nat_lit 773) (nat_lit 230) .nil)) (nat_lit 774) (nat_lit 780) (nat_lit 20710) (.node (.node .nil (nat_lit 781) (nat_lit 782) (nat_lit 230) .nil) (nat_lit 783) (nat_lit 783) (nat_lit 20710) .nil)) (nat_lit 784) (nat_lit 784) (nat_lit 230) (.node (.node (.node .nil (nat_lit 785) (nat_lit 785) (nat_lit 20710) .nil) (nat_lit 786) (nat_lit 786) (nat_lit 230) .nil) (nat_lit 787) (nat_lit 788) (nat_lit 20710) (.node (.node .nil (nat_lit 789) (nat_lit 789) (nat_lit 232) .nil) (nat_lit 790) (nat_lit 793) (nat_lit 220) .nil))))) (nat_lit 794) (nat_lit 794) (nat_lit 232) (.node (.node (.node (.node (.node (.node .nil (nat_lit 795) (nat_lit 795) (nat_lit 20696) .nil) (nat_lit 796) (nat_lit 800) (nat_lit 220) (.node .nil (nat_lit 801) (nat_lit 802) (nat_lit 202) .nil)) (nat_lit 803) (nat_lit 806) (nat_lit 20700) (.node (.node .nil (nat_lit 807) (nat_lit 808) (nat_lit 20682) .nil) (nat_lit 809) (nat_lit 812) (nat_lit 220) .nil)) (nat_lit 813) (nat_lit 814) (nat_lit 20700) (.node (.node (.node .nil (nat_lit 815) (nat_lit 815) (nat_lit 220) .nil) (nat_lit 816) (nat_lit 817) (nat_lit 20700) (.node .nil (nat_lit 818) (nat_lit 819) (nat_lit 220) .nil)) (nat_lit 820) (nat_lit 823) (nat_lit 1) (.node (.node .nil (nat_lit 824) (nat_lit 824) (nat_lit 20481) .nil) (nat_lit 825) (nat_lit 828) (nat_lit 220) .nil))) (nat_lit 829) (nat_lit 831) (nat_lit 230) (.node (.node (.node (.node .nil (nat_lit 832) (nat_lit 833) (nat_lit 43750) .nil) (nat_lit 834) (nat_lit 834) (nat_lit 20710) (.node .nil (nat_lit 835) (nat_lit 836) (nat_lit 43750) .nil)) (nat_lit 837) (nat_lit 837) (nat_lit 20720) (.node (.node .nil (nat_lit 838) (nat_lit 838) (nat_lit 230) .nil) (nat_lit 839) (nat_lit 841) (nat_lit 220) .nil)) (nat_lit 842) (nat_lit 844) (nat_lit 230) (.node (.node (.node .nil (nat_lit 845) (nat_lit 846) (nat_lit 220) .nil) (nat_lit 848) (nat_lit 850) (nat_lit 230) .nil) (nat_lit 851) (nat_lit 854) (nat_lit 220) (.node (.node .nil (nat_lit 855) (nat_lit 855) (nat_lit 230) .nil) (nat_lit 856) (nat_lit 856) (nat_lit 232) .nil)))) (nat_lit 857) (nat_lit 858) (nat_lit 220) (.node (.node (.node (.node (.node .nil (nat_lit 859) (nat_lit 859) (nat_lit 230) .nil) (nat_lit 860) (nat_lit 860) (nat_lit 233) (.node .nil (nat_lit 861) (nat_lit 862) (nat_lit 234) .nil)) (nat_lit 863) (nat_lit 863) (nat_lit 233) (.node (.node .nil (nat_lit 864) (nat_lit 865) (nat_lit 234) .nil) (nat_lit 866) (nat_lit 866) (nat_lit 233) .nil)) (nat_lit 867) (nat_lit 879) (nat_lit 230) (.node (.node (.node .nil (nat_lit 884) (nat_lit 884) (nat_lit 43520) .nil) (nat_lit 890) (nat_lit 890) (nat_lit 34816) .nil) (nat_lit 894) (nat_lit 894) (nat_lit 43520) (.node (.node .nil (nat_lit 900) (nat_lit 900) (nat_lit 34816) .nil) (nat_lit 901) (nat_lit 901) (nat_lit 35328) .nil))) (nat_lit 902) (nat_lit 902) (nat_lit 2560) (.node (.node (.node (.node .nil (nat_lit 903) (nat_lit 903) (nat_lit 43520) .nil) (nat_lit 904) (nat_lit 906) (nat_lit 2560) (.node .nil (nat_lit 908) (nat_lit 908) (nat_lit 2560) .nil)) (nat_lit 910) (nat_lit 912) (nat_lit 2560) (.node (.node .nil (nat_lit 938) (nat_lit 944) (nat_lit 2560) .nil) (nat_lit 970) (nat_lit 974) (nat_lit 2560) .nil)) (nat_lit 976) (nat_lit 978) (nat_lit 34816) (.node (.node (.node .nil (nat_lit 979) (nat_lit 980) (nat_lit 35328) .nil) (nat_lit 981) (nat_lit 982) (nat_lit 34816) .nil) (nat_lit 1008) (nat_lit 1010) (nat_lit 34816) (.node (.node .nil (nat_lit 1012) (nat_lit 1013) (nat_lit 34816) .nil) (nat_lit 1017) (nat_lit 1017) (nat_lit 34816) .nil)))))

def classT001 : RTree :=
  .node (.node (.node (.node (.node (.node (.node .nil (nat_lit 1027) (nat_lit 1027) (nat_lit 2560) .nil) (nat_lit 1031) (nat_lit 1031) (nat_lit 2560) (.node .nil (nat_lit 1036) (nat_lit 1038) (nat_lit 2560) .nil)) (nat_lit 1049) (nat_lit 1049) (nat_lit 2560) (.node (.node .nil (nat_lit 1081) (nat_lit 1081) (nat_lit 2560) .nil) (nat_lit 1104) (nat_lit 1105) (nat_lit 2560) .nil)) (nat_lit 1107) (nat_lit 1107) (nat_lit 2560) (.node (.node (.node .nil (nat_lit 1111) (nat_lit 1111) (nat_lit 2560) .nil) (nat_lit 1116) (nat_lit 1118) (nat_lit 2560) (.node .nil (nat_lit 1142) (nat_lit 1143) (nat_lit 2560) .nil)) (nat_lit 1155) (nat_lit 1159) (nat_lit 230) (.node (.node .nil (nat_lit 1217) (nat_lit 1218) (nat_lit 2560) .nil) (nat_lit 1232) (nat_lit 1235) (nat_lit 2560) .nil))) (nat_lit 1238) (nat_lit 1239) (nat_lit 2560) (.node (.node (.node (.node .nil (nat_lit 1242) (nat_lit 1247) (nat_lit 2560) .nil) (nat_lit 1250) (nat_lit 1255) (nat_lit 2560) (.node .nil (nat_lit 1258) (nat_lit 1269) (nat_lit 2560) .nil)) (nat_lit 1272) (nat_lit 1273) (nat_lit 2560) (.node (.node .nil (nat_lit 1415) (nat_lit 1415) (nat_lit 34816) .nil) (nat_lit 1425) (nat_lit 1425) (nat_lit 220) .nil)) (nat_lit 1426) (nat_lit 1429) (nat_lit 230) (.node (.node (.node .nil (nat_lit 1430) (nat_lit 1430) (nat_lit 220) .nil) (nat_lit 1431) (nat_lit 1433) (nat_lit 230) .nil) (nat_lit 1434) (nat_lit 1434) (nat_lit 222) (.node (.node .nil (nat_lit 1435) (nat_lit 1435) (nat_lit 220) .nil) (nat_lit 1436) (nat_lit 1441) (nat_lit 230) .nil)))) (nat_lit 1442) (nat_lit 1447) (nat_lit 220) (.node (.node (.node (.node (.node .nil (nat_lit 1448) (nat_lit 1449) (nat_lit 230) .nil) (nat_lit 1450) (nat_lit 1450) (nat_lit 220) (.node .nil (nat_lit 1451) (nat_lit 1452) (nat_lit 230) .nil)) (nat_lit 1453) (nat_lit 1453) (nat_lit 222) (.node (.node .nil (nat_lit 1454) (nat_lit 1454) (nat_lit 228) .nil) (nat_lit 1455) (nat_lit 1455) (nat_lit 230) .nil)) (nat_lit 1456) (nat_lit 1456) (nat_lit 10) (.node (.node (.node .nil (nat_lit 1457) (nat_lit 1457) (nat_lit 11) .nil) (nat_lit 1458) (nat_lit 1458) (nat_lit 12) (.node .nil (nat_lit 1459) (nat_lit 1459) (nat_lit 13) .nil)) (nat_lit 1460) (nat_lit 1460) (nat_lit 14) (.node (.node .nil (nat_lit 1461) (nat_lit 1461) (nat_lit 15) .nil) (nat_lit 1462) (nat_lit 1462) (nat_lit 16) .nil))) (nat_lit 1463) (nat_lit 1463) (nat_lit 17) (.node (.node (.node (.node .nil (nat_lit 1464) (nat_lit 1464) (nat_lit 18) .nil) (nat_lit 1465) (nat_lit 1466) (nat_lit 19) (.node .nil (nat_lit 1467) (nat_lit 1467) (nat_lit 20) .nil)) (nat_lit 1468) (nat_lit 1468) (nat_lit 21) (.node (.node .nil (nat_lit 1469) (nat_lit 1469) (nat_lit 22) .nil) (nat_lit 1471) (nat_lit 1471) (nat_lit 23) .nil)) (nat_lit 1473) (nat_lit 1473) (nat_lit 24) (.node (.node (.node .nil (nat_lit 1474) (nat_lit 1474) (nat_lit 25) .nil) (nat_lit 1476) (nat_lit 1476) (nat_lit 230) .nil) (nat_lit 1477) (nat_lit 1477) (nat_lit 220) (.node (.node .nil (nat_lit 1479) (nat_lit 1479) (nat_lit 18) .nil) (nat_lit 1552) (nat_lit 1559) (nat_lit 230) .nil))))) (nat_lit 1560) (nat_lit 1560) (nat_lit 30) (.node (.node (.node (.node (.node (.node .nil (nat_lit 1561) (nat_lit 1561) (nat_lit 31) .nil) (nat_lit 1562) (nat_lit 1562) (nat_lit 32) (.node .nil (nat_lit 1570) (nat_lit 1574) (nat_lit 2560) .nil)) (nat_lit 1611) (nat_lit 1611) (nat_lit 27) (.node (.node .nil (nat_lit 1612) (nat_lit 1612) (nat_lit 28) .nil) (nat_lit 1613) (nat_lit 1613) (nat_lit 29) .nil)) (nat_lit 1614) (nat_lit 1614) (nat_lit 30) (.node (.node (.node .nil (nat_lit 1615) (nat_lit 1615) (nat_lit 31) .nil) (nat_lit 1616) (nat_lit 1616) (nat_lit 32) (.node .nil (nat_lit 1617) (nat_lit 1617) (nat_lit 33) .nil)) (nat_lit 1618) (nat_lit 1618) (nat_lit 34) (.node (.node .nil (nat_lit 1619) (nat_lit 1620) (nat_lit 20710) .nil) (nat_lit 1621) (nat_lit 1621) (nat_lit 20700) .nil))) (nat_lit 1622) (nat_lit 1622) (nat_lit 220) (.node (.node (.node (.node .nil (nat_lit 1623) (nat_lit 1627) (nat_lit 230) .nil) (nat_lit 1628) (nat_lit 1628) (nat_lit 220) (.node .nil (nat_lit 1629) (nat_lit 1630) (nat_lit 230) .nil)) (nat_lit 1631) (nat_lit 1631) (nat_lit 220) (.node (.node .nil (nat_lit 1648) (nat_lit 1648) (nat_lit 35) .nil) (nat_lit 1653) (nat_lit 1656) (nat_lit 34816) .nil)) (nat_lit 1728) (nat_lit 1728) (nat_lit 2560) (.node (.node (.node .nil (nat_lit 1730) (nat_lit 1730) (nat_lit 2560) .nil) (nat_lit 1747) (nat_lit 1747) (nat_lit 2560) .nil) (nat_lit 1750) (nat_lit 1756) (nat_lit 230) (.node (.node .nil (nat_lit 1759) (nat_lit 1762) (nat_lit 230) .nil) (nat_lit 1763) (nat_lit 1763) (nat_lit 220) .nil)))) (nat_lit 1764) (nat_lit 1764) (nat_lit 230) (.node (.node (.node (.node (.node .nil (nat_lit 1767) (nat_lit 1768) (nat_lit 230) .nil) (nat_lit 1770) (nat_lit 1770) (nat_lit 220) (.node .nil (nat_lit 1771) (nat_lit 1772) (nat_lit 230) .nil)) (nat_lit 1773) (nat_lit 1773) (nat_lit 220) (.node (.node .nil (nat_lit 1809) (nat_lit 1809) (nat_lit 36) .nil) (nat_lit 1840) (nat_lit 1840) (nat_lit 230) .nil)) (nat_lit 1841) (nat_lit 1841) (nat_lit 220) (.node (.node (.node .nil (nat_lit 1842) (nat_lit 1843) (nat_lit 230) .nil) (nat_lit 1844) (nat_lit 1844) (nat_lit 220) .nil) (nat_lit 1845) (nat_lit 1846) (nat_lit 230) (.node (.node .nil (nat_lit 1847) (nat_lit 1849) (nat_lit 220) .nil) (nat_lit 1850) (nat_lit 1850) (nat_lit 230) .nil))) (nat_lit 1851) (nat_lit 1852) (nat_lit 220) (.node (.node (.node (.node .nil (nat_lit 1853) (nat_lit 1853) (nat_lit 230) .nil) (nat_lit 1854) (nat_lit 1854) (nat_lit 220) (.node .nil (nat_lit 1855) (nat_lit 1857) (nat_lit 230) .nil)) (nat_lit 1858) (nat_lit 1858) (nat_lit 220) (.node (.node .nil (nat_lit 1859) (nat_lit 1859) (nat_lit 230) .nil) (nat_lit 1860) (nat_lit 1860) (nat_lit 220) .nil)) (nat_lit 1861) (nat_lit 1861) (nat_lit 230) (.node (.node (.node .nil (nat_lit 1862) (nat_lit 1862) (nat_lit 220) .nil) (nat_lit 1863) (nat_lit 1863) (nat_lit 230) .nil) (nat_lit 1864) (nat_lit 1864) (nat_lit 220) (.node (.node .nil (nat_lit 1865) (nat_lit 1866) (nat_lit 230) .nil) (nat_lit 2027) (nat_lit 2033) (nat_lit 230) .nil)))))

def classT010 : RTree :=
  .node (.node (.node (.node (.node (.node (.node .nil (nat_lit 2035) (nat_lit 2035) (nat_lit 230) .nil) (nat_lit 2045) (nat_lit 2045) (nat_lit 220) (.node .nil (nat_lit 2070) (nat_lit 2073) (nat_lit 230) .nil)) (nat_lit 2075) (nat_lit 2083) (nat_lit 230) (.node (.node .nil (nat_lit 2085) (nat_lit 2087) (nat_lit 230) .nil) (nat_lit 2089) (nat_lit 2093) (nat_lit 230) .nil)) (nat_lit 2137) (nat_lit 2139) (nat_lit 220) (.node (.node (.node .nil (nat_lit 2259) (nat_lit 2259) (nat_lit 220) .nil) (nat_lit 2260) (nat_lit 2273) (nat_lit 230) (.node .nil (nat_lit 2275) (nat_lit 2275) (nat_lit 220) .nil)) (nat_lit 2276) (nat_lit 2277) (nat_lit 230) (.node (.node .nil (nat_lit 2278) (nat_lit 2278) (nat_lit 220) .nil) (nat_lit 2279) (nat_lit 2280) (nat_lit 230) .nil))) (nat_lit 2281) (nat_lit 2281) (nat_lit 220) (.node (.node (.node (.node .nil (nat_lit 2282) (nat_lit 2284) (nat_lit 230) .nil) (nat_lit 2285) (nat_lit 2287) (nat_lit 220) (.node .nil (nat_lit 2288) (nat_lit 2288) (nat_lit 27) .nil)) (nat_lit 2289) (nat_lit 2289) (nat_lit 28) (.node (.node .nil (nat_lit 2290) (nat_lit 2290) (nat_lit 29) .nil) (nat_lit 2291) (nat_lit 2293) (nat_lit 230) .nil)) (nat_lit 2294) (nat_lit 2294) (nat_lit 220) (.node (.node (.node .nil (nat_lit 2295) (nat_lit 2296) (nat_lit 230) .nil) (nat_lit 2297) (nat_lit 2298) (nat_lit 220) .nil) (nat_lit 2299) (nat_lit 2303) (nat_lit 230) (.node (.node .nil (nat_lit 2345) (nat_lit 2345) (nat_lit 2560) .nil) (nat_lit 2353) (nat_lit 2353) (nat_lit 2560) .nil)))) (nat_lit 2356) (nat_lit 2356) (nat_lit 2560) (.node (.node (.node (.node (.node .nil (nat_lit 2364) (nat_lit 2364) (nat_lit 20487) .nil) (nat_lit 2381) (nat_lit 2381) (nat_lit 9) (.node .nil (nat_lit 2385) (nat_lit 2385) (nat_lit 230) .nil)) (nat_lit 2386) (nat_lit 2386) (nat_lit 220) (.node (.node .nil (nat_lit 2387) (nat_lit 2388) (nat_lit 230) .nil) (nat_lit 2392) (nat_lit 2399) (nat_lit 43520) .nil)) (nat_lit 2492) (nat_lit 2492) (nat_lit 7) (.node (.node (.node .nil (nat_lit 2494) (nat_lit 2494) (nat_lit 20480) .nil) (nat_lit 2507) (nat_lit 2508) (nat_lit 2560) (.node .nil (nat_lit 2509) (nat_lit 2509) (nat_lit 9) .nil)) (nat_lit 2519) (nat_lit 2519) (nat_lit 20480) (.node (.node .nil (nat_lit 2524) (nat_lit 2525) (nat_lit 43520) .nil) (nat_lit 2527) (nat_lit 2527) (nat_lit 43520) .nil))) (nat_lit 2558) (nat_lit 2558) (nat_lit 230) (.node (.node (.node (.node .nil (nat_lit 2611) (nat_lit 2611) (nat_lit 43520) .nil) (nat_lit 2614) (nat_lit 2614) (nat_lit 43520) (.node .nil (nat_lit 2620) (nat_lit 2620) (nat_lit 7) .nil)) (nat_lit 2637) (nat_lit 2637) (nat_lit 9) (.node (.node .nil (nat_lit 2649) (nat_lit 2651) (nat_lit 43520) .nil) (nat_lit 2654) (nat_lit 2654) (nat_lit 43520) .nil)) (nat_lit 2748) (nat_lit 2748) (nat_lit 7) (.node (.node (.node .nil (nat_lit 2765) (nat_lit 2765) (nat_lit 9) .nil) (nat_lit 2876) (nat_lit 2876) (nat_lit 7) .nil) (nat_lit 2878) (nat_lit 2878) (nat_lit 20480) (.node (.node .nil (nat_lit 2888) (nat_lit 2888) (nat_lit 2560) .nil) (nat_lit 2891) (nat_lit 2892) (nat_lit 2560) .nil))))) (nat_lit 2893) (nat_lit 2893) (nat_lit 9) (.node (.node (.node (.node (.node (.node .nil (nat_lit 2902) (nat_lit 2903) (nat_lit 20480) .nil) (nat_lit 2908) (nat_lit 2909) (nat_lit 43520) (.node .nil (nat_lit 2964) (nat_lit 2964) (nat_lit 2560) .nil)) (nat_lit 3006) (nat_lit 3006) (nat_lit 20480) (.node (.node .nil (nat_lit 3018) (nat_lit 3020) (nat_lit 2560) .nil) (nat_lit 3021) (nat_lit 3021) (nat_lit 9) .nil)) (nat_lit 3031) (nat_lit 3031) (nat_lit 20480) (.node (.node (.node .nil (nat_lit 3144) (nat_lit 3144) (nat_lit 2560) .nil) (nat_lit 3149) (nat_lit 3149) (nat_lit 9) (.node .nil (nat_lit 3157) (nat_lit 3157) (nat_lit 84) .nil)) (nat_lit 3158) (nat_lit 3158) (nat_lit 20571) (.node (.node .nil (nat_lit 3260) (nat_lit 3260) (nat_lit 7) .nil) (nat_lit 3264) (nat_lit 3264) (nat_lit 2560) .nil))) (nat_lit 3266) (nat_lit 3266) (nat_lit 20480) (.node (.node (.node (.node .nil (nat_lit 3271) (nat_lit 3272) (nat_lit 2560) .nil) (nat_lit 3274) (nat_lit 3275) (nat_lit 2560) (.node .nil (nat_lit 3277) (nat_lit 3277) (nat_lit 9) .nil)) (nat_lit 3285) (nat_lit 3286) (nat_lit 20480) (.node (.node .nil (nat_lit 3387) (nat_lit 3388) (nat_lit 9) .nil) (nat_lit 3390) (nat_lit 3390) (nat_lit 20480) .nil)) (nat_lit 3402) (nat_lit 3404) (nat_lit 2560) (.node (.node (.node .nil (nat_lit 3405) (nat_lit 3405) (nat_lit 9) .nil) (nat_lit 3415) (nat_lit 3415) (nat_lit 20480) .nil) (nat_lit 3530) (nat_lit 3530) (nat_lit 20489) (.node (.node .nil (nat_lit 3535) (nat_lit 3535) (nat_lit 20480) .nil) (nat_lit 3546) (nat_lit 3546) (nat_lit 2560) .nil)))) (nat_lit 3548) (nat_lit 3550) (nat_lit 2560) (.node (.node (.node (.node (.node .nil (nat_lit 3551) (nat_lit 3551) (nat_lit 20480) .nil) (nat_lit 3635) (nat_lit 3635) (nat_lit 34816) (.node .nil (nat_lit 3640) (nat_lit 3641) (nat_lit 103) .nil)) (nat_lit 3642) (nat_lit 3642) (nat_lit 9) (.node (.node .nil (nat_lit 3656) (nat_lit 3659) (nat_lit 107) .nil) (nat_lit 3763) (nat_lit 3763) (nat_lit 34816) .nil)) (nat_lit 3768) (nat_lit 3769) (nat_lit 118) (.node (.node (.node .nil (nat_lit 3770) (nat_lit 3770) (nat_lit 9) .nil) (nat_lit 3784) (nat_lit 3787) (nat_lit 122) .nil) (nat_lit 3804) (nat_lit 3805) (nat_lit 34816) (.node (.node .nil (nat_lit 3852) (nat_lit 3852) (nat_lit 34816) .nil) (nat_lit 3864) (nat_lit 3865) (nat_lit 220) .nil))) (nat_lit 3893) (nat_lit 3893) (nat_lit 220) (.node (.node (.node (.node .nil (nat_lit 3895) (nat_lit 3895) (nat_lit 220) .nil) (nat_lit 3897) (nat_lit 3897) (nat_lit 216) (.node .nil (nat_lit 3907) (nat_lit 3907) (nat_lit 43520) .nil)) (nat_lit 3917) (nat_lit 3917) (nat_lit 43520) (.node (.node .nil (nat_lit 3922) (nat_lit 3922) (nat_lit 43520) .nil) (nat_lit 3927) (nat_lit 3927) (nat_lit 43520) .nil)) (nat_lit 3932) (nat_lit 3932) (nat_lit 43520) (.node (.node (.node .nil (nat_lit 3945) (nat_lit 3945) (nat_lit 43520) .nil) (nat_lit 3953) (nat_lit 3953) (nat_lit 129) .nil) (nat_lit 3954) (nat_lit 3954) (nat_lit 130) (.node (.node .nil (nat_lit 3955) (nat_lit 3955) (nat_lit 43520) .nil) (nat_lit 3956) (nat_lit 3956) (nat_lit 132) .nil)))))

def classT011 : RTree :=
  .node (.node (.node (.node (.node (.node (.node .nil (nat_lit 3959) (nat_lit 3959) (nat_lit 34816) .nil) (nat_lit 3960) (nat_lit 3960) (nat_lit 43520) (.node .nil (nat_lit 3961) (nat_lit 3961) (nat_lit 34816) .nil)) (nat_lit 3962) (nat_lit 3965) (nat_lit 130) (.node (.node .nil (nat_lit 3968) (nat_lit 3968) (nat_lit 130) .nil) (nat_lit 3969) (nat_lit 3969) (nat_lit 43520) .nil)) (nat_lit 3970) (nat_lit 3971) (nat_lit 230) (.node (.node (.node .nil (nat_lit 3972) (nat_lit 3972) (nat_lit 9) .nil) (nat_lit 3974) (nat_lit 3975) (nat_lit 230) (.node .nil (nat_lit 3987) (nat_lit 3987) (nat_lit 43520) .nil)) (nat_lit 3997) (nat_lit 3997) (nat_lit 43520) (.node (.node .nil (nat_lit 4002) (nat_lit 4002) (nat_lit 43520) .nil) (nat_lit 4007) (nat_lit 4007) (nat_lit 43520) .nil))) (nat_lit 4012) (nat_lit 4012) (nat_lit 43520) (.node (.node (.node (.node .nil (nat_lit 4025) (nat_lit 4025) (nat_lit 43520) .nil) (nat_lit 4038) (nat_lit 4038) (nat_lit 220) (.node .nil (nat_lit 4134) (nat_lit 4134) (nat_lit 2560) .nil)) (nat_lit 4142) (nat_lit 4142) (nat_lit 20480) (.node (.node .nil (nat_lit 4151) (nat_lit 4151) (nat_lit 7) .nil) (nat_lit 4153) (nat_lit 4154) (nat_lit 9) .nil)) (nat_lit 4237) (nat_lit 4237) (nat_lit 220) (.node (.node (.node .nil (nat_lit 4348) (nat_lit 4348) (nat_lit 34816) .nil) (nat_lit 4449) (nat_lit 4469) (nat_lit 20480) .nil) (nat_lit 4520) (nat_lit 4546) (nat_lit 20480) (.node (.node .nil (nat_lit 4957) (nat_lit 4959) (nat_lit 230) .nil) (nat_lit 5908) (nat_lit 5908) (nat_lit 9) .nil)))) (nat_lit 5940) (nat_lit 5940) (nat_lit 9) (.node (.node (.node (.node (.node .nil (nat_lit 6098) (nat_lit 6098) (nat_lit 9) .nil) (nat_lit 6109) (nat_lit 6109) (nat_lit 230) (.node .nil (nat_lit 6313) (nat_lit 6313) (nat_lit 228) .nil)) (nat_lit 6457) (nat_lit 6457) (nat_lit 222) (.node (.node .nil (nat_lit 6458) (nat_lit 6458) (nat_lit 230) .nil) (nat_lit 6459) (nat_lit 6459) (nat_lit 220) .nil)) (nat_lit 6679) (nat_lit 6679) (nat_lit 230) (.node (.node (.node .nil (nat_lit 6680) (nat_lit 6680) (nat_lit 220) .nil) (nat_lit 6752) (nat_lit 6752) (nat_lit 9) .nil) (nat_lit 6773) (nat_lit 6780) (nat_lit 230) (.node (.node .nil (nat_lit 6783) (nat_lit 6783) (nat_lit 220) .nil) (nat_lit 6832) (nat_lit 6836) (nat_lit 230) .nil))) (nat_lit 6837) (nat_lit 6842) (nat_lit 220) (.node (.node (.node (.node .nil (nat_lit 6843) (nat_lit 6844) (nat_lit 230) .nil) (nat_lit 6845) (nat_lit 6845) (nat_lit 220) (.node .nil (nat_lit 6918) (nat_lit 6918) (nat_lit 2560) .nil)) (nat_lit 6920) (nat_lit 6920) (nat_lit 2560) (.node (.node .nil (nat_lit 6922) (nat_lit 6922) (nat_lit 2560) .nil) (nat_lit 6924) (nat_lit 6924) (nat_lit 2560) .nil)) (nat_lit 6926) (nat_lit 6926) (nat_lit 2560) (.node (.node (.node .nil (nat_lit 6930) (nat_lit 6930) (nat_lit 2560) .nil) (nat_lit 6964) (nat_lit 6964) (nat_lit 7) .nil) (nat_lit 6965) (nat_lit 6965) (nat_lit 20480) (.node (.node .nil (nat_lit 6971) (nat_lit 6971) (nat_lit 2560) .nil) (nat_lit 6973) (nat_lit 6973) (nat_lit 2560) .nil))))) (nat_lit 6976) (nat_lit 6977) (nat_lit 2560) (.node (.node (.node (.node (.node (.node .nil (nat_lit 6979) (nat_lit 6979) (nat_lit 2560) .nil) (nat_lit 6980) (nat_lit 6980) (nat_lit 9) (.node .nil (nat_lit 7019) (nat_lit 7019) (nat_lit 230) .nil)) (nat_lit 7020) (nat_lit 7020) (nat_lit 220) (.node (.node .nil (nat_lit 7021) (nat_lit 7027) (nat_lit 230) .nil) (nat_lit 7082) (nat_lit 7083) (nat_lit 9) .nil)) (nat_lit 7142) (nat_lit 7142) (nat_lit 7) (.node (.node (.node .nil (nat_lit 7154) (nat_lit 7155) (nat_lit 9) .nil) (nat_lit 7223) (nat_lit 7223) (nat_lit 7) (.node .nil (nat_lit 7376) (nat_lit 7378) (nat_lit 230) .nil)) (nat_lit 7380) (nat_lit 7380) (nat_lit 1) (.node (.node .nil (nat_lit 7381) (nat_lit 7385) (nat_lit 220) .nil) (nat_lit 7386) (nat_lit 7387) (nat_lit 230) .nil))) (nat_lit 7388) (nat_lit 7391) (nat_lit 220) (.node (.node (.node (.node .nil (nat_lit 7392) (nat_lit 7392) (nat_lit 230) .nil) (nat_lit 7394) (nat_lit 7400) (nat_lit 1) (.node .nil (nat_lit 7405) (nat_lit 7405) (nat_lit 220) .nil)) (nat_lit 7412) (nat_lit 7412) (nat_lit 230) (.node (.node .nil (nat_lit 7416) (nat_lit 7417) (nat_lit 230) .nil) (nat_lit 7468) (nat_lit 7470) (nat_lit 34816) .nil)) (nat_lit 7472) (nat_lit 7482) (nat_lit 34816) (.node (.node (.node .nil (nat_lit 7484) (nat_lit 7501) (nat_lit 34816) .nil) (nat_lit 7503) (nat_lit 7530) (nat_lit 34816) .nil) (nat_lit 7544) (nat_lit 7544) (nat_lit 34816) (.node (.node .nil (nat_lit 7579) (nat_lit 7615) (nat_lit 34816) .nil) (nat_lit 7616) (nat_lit 7617) (nat_lit 230) .nil)))) (nat_lit 7618) (nat_lit 7618) (nat_lit 220) (.node (.node (.node (.node (.node .nil (nat_lit 7619) (nat_lit 7625) (nat_lit 230) .nil) (nat_lit 7626) (nat_lit 7626) (nat_lit 220) (.node .nil (nat_lit 7627) (nat_lit 7628) (nat_lit 230) .nil)) (nat_lit 7629) (nat_lit 7629) (nat_lit 234) (.node (.node .nil (nat_lit 7630) (nat_lit 7630) (nat_lit 214) .nil) (nat_lit 7631) (nat_lit 7631) (nat_lit 220) .nil)) (nat_lit 7632) (nat_lit 7632) (nat_lit 202) (.node (.node (.node .nil (nat_lit 7633) (nat_lit 7669) (nat_lit 230) .nil) (nat_lit 7670) (nat_lit 7670) (nat_lit 232) .nil) (nat_lit 7671) (nat_lit 7672) (nat_lit 228) (.node (.node .nil (nat_lit 7673) (nat_lit 7673) (nat_lit 220) .nil) (nat_lit 7675) (nat_lit 7675) (nat_lit 230) .nil))) (nat_lit 7676) (nat_lit 7676) (nat_lit 233) (.node (.node (.node (.node .nil (nat_lit 7677) (nat_lit 7677) (nat_lit 220) .nil) (nat_lit 7678) (nat_lit 7678) (nat_lit 230) (.node .nil (nat_lit 7679) (nat_lit 7679) (nat_lit 220) .nil)) (nat_lit 7680) (nat_lit 7833) (nat_lit 2560) (.node (.node .nil (nat_lit 7834) (nat_lit 7834) (nat_lit 34816) .nil) (nat_lit 7835) (nat_lit 7835) (nat_lit 35328) .nil)) (nat_lit 7840) (nat_lit 7929) (nat_lit 2560) (.node (.node (.node .nil (nat_lit 7936) (nat_lit 7957) (nat_lit 2560) .nil) (nat_lit 7960) (nat_lit 7965) (nat_lit 2560) .nil) (nat_lit 7968) (nat_lit 8005) (nat_lit 2560) (.node (.node .nil (nat_lit 8008) (nat_lit 8013) (nat_lit 2560) .nil) (nat_lit 8016) (nat_lit 8023) (nat_lit 2560) .nil)))))

def classT100 : RTree :=
  .node (.node (.node (.node (.node (.node (.node .nil (nat_lit 8027) (nat_lit 8027) (nat_lit 2560) .nil) (nat_lit 8029) (nat_lit 8029) (nat_lit 2560) (.node .nil (nat_lit 8031) (nat_lit 8048) (nat_lit 2560) .nil)) (nat_lit 8049) (nat_lit 8049) (nat_lit 43520) (.node (.node .nil (nat_lit 8050) (nat_lit 8050) (nat_lit 2560) .nil) (nat_lit 8051) (nat_lit 8051) (nat_lit 43520) .nil)) (nat_lit 8052) (nat_lit 8052) (nat_lit 2560) (.node (.node (.node .nil (nat_lit 8053) (nat_lit 8053) (nat_lit 43520) .nil) (nat_lit 8054) (nat_lit 8054) (nat_lit 2560) (.node .nil (nat_lit 8055) (nat_lit 8055) (nat_lit 43520) .nil)) (nat_lit 8056) (nat_lit 8056) (nat_lit 2560) (.node (.node .nil (nat_lit 8057) (nat_lit 8057) (nat_lit 43520) .nil) (nat_lit 8058) (nat_lit 8058) (nat_lit 2560) .nil))) (nat_lit 8059) (nat_lit 8059) (nat_lit 43520) (.node (.node (.node (.node .nil (nat_lit 8060) (nat_lit 8060) (nat_lit 2560) .nil) (nat_lit 8061) (nat_lit 8061) (nat_lit 43520) (.node .nil (nat_lit 8064) (nat_lit 8116) (nat_lit 2560) .nil)) (nat_lit 8118) (nat_lit 8122) (nat_lit 2560) (.node (.node .nil (nat_lit 8123) (nat_lit 8123) (nat_lit 43520) .nil) (nat_lit 8124) (nat_lit 8124) (nat_lit 2560) .nil)) (nat_lit 8125) (nat_lit 8125) (nat_lit 34816) (.node (.node (.node .nil (nat_lit 8126) (nat_lit 8126) (nat_lit 43520) .nil) (nat_lit 8127) (nat_lit 8128) (nat_lit 34816) .nil) (nat_lit 8129) (nat_lit 8129) (nat_lit 35328) (.node (.node .nil (nat_lit 8130) (nat_lit 8132) (nat_lit 2560) .nil) (nat_lit 8134) (nat_lit 8136) (nat_lit 2560) .nil)))) (nat_lit 8137) (nat_lit 8137) (nat_lit 43520) (.node (.node (.node (.node (.node .nil (nat_lit 8138) (nat_lit 8138) (nat_lit 2560) .nil) (nat_lit 8139) (nat_lit 8139) (nat_lit 43520) (.node .nil (nat_lit 8140) (nat_lit 8140) (nat_lit 2560) .nil)) (nat_lit 8141) (nat_lit 8143) (nat_lit 35328) (.node (.node .nil (nat_lit 8144) (nat_lit 8146) (nat_lit 2560) .nil) (nat_lit 8147) (nat_lit 8147) (nat_lit 43520) .nil)) (nat_lit 8150) (nat_lit 8154) (nat_lit 2560) (.node (.node (.node .nil (nat_lit 8155) (nat_lit 8155) (nat_lit 43520) .nil) (nat_lit 8157) (nat_lit 8159) (nat_lit 35328) (.node .nil (nat_lit 8160) (nat_lit 8162) (nat_lit 2560) .nil)) (nat_lit 8163) (nat_lit 8163) (nat_lit 43520) (.node (.node .nil (nat_lit 8164) (nat_lit 8170) (nat_lit 2560) .nil) (nat_lit 8171) (nat_lit 8171) (nat_lit 43520) .nil))) (nat_lit 8172) (nat_lit 8172) (nat_lit 2560) (.node (.node (.node (.node .nil (nat_lit 8173) (nat_lit 8173) (nat_lit 35328) .nil) (nat_lit 8174) (nat_lit 8175) (nat_lit 43520) (.node .nil (nat_lit 8178) (nat_lit 8180) (nat_lit 2560) .nil)) (nat_lit 8182) (nat_lit 8184) (nat_lit 2560) (.node (.node .nil (nat_lit 8185) (nat_lit 8185) (nat_lit 43520) .nil) (nat_lit 8186) (nat_lit 8186) (nat_lit 2560) .nil)) (nat_lit 8187) (nat_lit 8187) (nat_lit 43520) (.node (.node (.node .nil (nat_lit 8188) (nat_lit 8188) (nat_lit 2560) .nil) (nat_lit 8189) (nat_lit 8189) (nat_lit 43520) .nil) (nat_lit 8190) (nat_lit 8190) (nat_lit 34816) (.node (.node .nil (nat_lit 8192) (nat_lit 8193) (nat_lit 43520) .nil) (nat_lit 8194) (nat_lit 8202) (nat_lit 34816) .nil))))) (nat_lit 8209) (nat_lit 8209) (nat_lit 34816) (.node (.node (.node (.node (.node (.node .nil (nat_lit 8215) (nat_lit 8215) (nat_lit 34816) .nil) (nat_lit 8228) (nat_lit 8230) (nat_lit 34816) (.node .nil (nat_lit 8239) (nat_lit 8239) (nat_lit 34816) .nil)) (nat_lit 8243) (nat_lit 8244) (nat_lit 34816) (.node (.node .nil (nat_lit 8246) (nat_lit 8247) (nat_lit 34816) .nil) (nat_lit 8252) (nat_lit 8252) (nat_lit 34816) .nil)) (nat_lit 8254) (nat_lit 8254) (nat_lit 34816) (.node (.node (.node .nil (nat_lit 8263) (nat_lit 8265) (nat_lit 34816) .nil) (nat_lit 8279) (nat_lit 8279) (nat_lit 34816) (.node .nil (nat_lit 8287) (nat_lit 8287) (nat_lit 34816) .nil)) (nat_lit 8304) (nat_lit 8305) (nat_lit 34816) (.node (.node .nil (nat_lit 8308) (nat_lit 8334) (nat_lit 34816) .nil) (nat_lit 8336) (nat_lit 8348) (nat_lit 34816) .nil))) (nat_lit 8360) (nat_lit 8360) (nat_lit 34816) (.node (.node (.node (.node .nil (nat_lit 8400) (nat_lit 8401) (nat_lit 230) .nil) (nat_lit 8402) (nat_lit 8403) (nat_lit 1) (.node .nil (nat_lit 8404) (nat_lit 8407) (nat_lit 230) .nil)) (nat_lit 8408) (nat_lit 8410) (nat_lit 1) (.node (.node .nil (nat_lit 8411) (nat_lit 8412) (nat_lit 230) .nil) (nat_lit 8417) (nat_lit 8417) (nat_lit 230) .nil)) (nat_lit 8421) (nat_lit 8422) (nat_lit 1) (.node (.node (.node .nil (nat_lit 8423) (nat_lit 8423) (nat_lit 230) .nil) (nat_lit 8424) (nat_lit 8424) (nat_lit 220) .nil) (nat_lit 8425) (nat_lit 8425) (nat_lit 230) (.node (.node .nil (nat_lit 8426) (nat_lit 8427) (nat_lit 1) .nil) (nat_lit 8428) (nat_lit 8431) (nat_lit 220) .nil)))) (nat_lit 8432) (nat_lit 8432) (nat_lit 230) (.node (.node (.node (.node (.node .nil (nat_lit 8448) (nat_lit 8451) (nat_lit 34816) .nil) (nat_lit 8453) (nat_lit 8455) (nat_lit 34816) (.node .nil (nat_lit 8457) (nat_lit 8467) (nat_lit 34816) .nil)) (nat_lit 8469) (nat_lit 8470) (nat_lit 34816) (.node (.node .nil (nat_lit 8473) (nat_lit 8477) (nat_lit 34816) .nil) (nat_lit 8480) (nat_lit 8482) (nat_lit 34816) .nil)) (nat_lit 8484) (nat_lit 8484) (nat_lit 34816) (.node (.node (.node .nil (nat_lit 8486) (nat_lit 8486) (nat_lit 43520) .nil) (nat_lit 8488) (nat_lit 8488) (nat_lit 34816) .nil) (nat_lit 8490) (nat_lit 8491) (nat_lit 43520) (.node (.node .nil (nat_lit 8492) (nat_lit 8493) (nat_lit 34816) .nil) (nat_lit 8495) (nat_lit 8497) (nat_lit 34816) .nil))) (nat_lit 8499) (nat_lit 8505) (nat_lit 34816) (.node (.node (.node (.node .nil (nat_lit 8507) (nat_lit 8512) (nat_lit 34816) .nil) (nat_lit 8517) (nat_lit 8521) (nat_lit 34816) (.node .nil (nat_lit 8528) (nat_lit 8575) (nat_lit 34816) .nil)) (nat_lit 8585) (nat_lit 8585) (nat_lit 34816) (.node (.node .nil (nat_lit 8602) (nat_lit 8603) (nat_lit 2560) .nil) (nat_lit 8622) (nat_lit 8622) (nat_lit 2560) .nil)) (nat_lit 8653) (nat_lit 8655) (nat_lit 2560) (.node (.node (.node .nil (nat_lit 8708) (nat_lit 8708) (nat_lit 2560) .nil) (nat_lit 8713) (nat_lit 8713) (nat_lit 2560) .nil) (nat_lit 8716) (nat_lit 8716) (nat_lit 2560) (.node (.node .nil (nat_lit 8740) (nat_lit 8740) (nat_lit 2560) .nil) (nat_lit 8742) (nat_lit 8742) (nat_lit 2560) .nil)))))

def classT101 : RTree :=
  .node (.node (.node (.node (.node (.node (.node .nil (nat_lit 8751) (nat_lit 8752) (nat_lit 34816) .nil) (nat_lit 8769) (nat_lit 8769) (nat_lit 2560) (.node .nil (nat_lit 8772) (nat_lit 8772) (nat_lit 2560) .nil)) (nat_lit 8775) (nat_lit 8775) (nat_lit 2560) (.node (.node .nil (nat_lit 8777) (nat_lit 8777) (nat_lit 2560) .nil) (nat_lit 8800) (nat_lit 8800) (nat_lit 2560) .nil)) (nat_lit 8802) (nat_lit 8802) (nat_lit 2560) (.node (.node (.node .nil (nat_lit 8813) (nat_lit 8817) (nat_lit 2560) .nil) (nat_lit 8820) (nat_lit 8821) (nat_lit 2560) (.node .nil (nat_lit 8824) (nat_lit 8825) (nat_lit 2560) .nil)) (nat_lit 8832) (nat_lit 8833) (nat_lit 2560) (.node (.node .nil (nat_lit 8836) (nat_lit 8837) (nat_lit 2560) .nil) (nat_lit 8840) (nat_lit 8841) (nat_lit 2560) .nil))) (nat_lit 8876) (nat_lit 8879) (nat_lit 2560) (.node (.node (.node (.node .nil (nat_lit 8928) (nat_lit 8931) (nat_lit 2560) .nil) (nat_lit 8938) (nat_lit 8941) (nat_lit 2560) (.node .nil (nat_lit 9001) (nat_lit 9002) (nat_lit 43520) .nil)) (nat_lit 9312) (nat_lit 9450) (nat_lit 34816) (.node (.node .nil (nat_lit 10764) (nat_lit 10764) (nat_lit 34816) .nil) (nat_lit 10868) (nat_lit 10870) (nat_lit 34816) .nil)) (nat_lit 10972) (nat_lit 10972) (nat_lit 43520) (.node (.node (.node .nil (nat_lit 11388) (nat_lit 11389) (nat_lit 34816) .nil) (nat_lit 11503) (nat_lit 11505) (nat_lit 230) .nil) (nat_lit 11631) (nat_lit 11631) (nat_lit 34816) (.node (.node .nil (nat_lit 11647) (nat_lit 11647) (nat_lit 9) .nil) (nat_lit 11744) (nat_lit 11775) (nat_lit 230) .nil)))) (nat_lit 11935) (nat_lit 11935) (nat_lit 34816) (.node (.node (.node (.node (.node .nil (nat_lit 12019) (nat_lit 12019) (nat_lit 34816) .nil) (nat_lit 12032) (nat_lit 12245) (nat_lit 34816) (.node .nil (nat_lit 12288) (nat_lit 12288) (nat_lit 34816) .nil)) (nat_lit 12330) (nat_lit 12330) (nat_lit 218) (.node (.node .nil (nat_lit 12331) (nat_lit 12331) (nat_lit 228) .nil) (nat_lit 12332) (nat_lit 12332) (nat_lit 232) .nil)) (nat_lit 12333) (nat_lit 12333) (nat_lit 222) (.node (.node (.node .nil (nat_lit 12334) (nat_lit 12335) (nat_lit 224) .nil) (nat_lit 12342) (nat_lit 12342) (nat_lit 34816) .nil) (nat_lit 12344) (nat_lit 12346) (nat_lit 34816) (.node (.node .nil (nat_lit 12364) (nat_lit 12364) (nat_lit 2560) .nil) (nat_lit 12366) (nat_lit 12366) (nat_lit 2560) .nil))) (nat_lit 12368) (nat_lit 12368) (nat_lit 2560) (.node (.node (.node (.node .nil (nat_lit 12370) (nat_lit 12370) (nat_lit 2560) .nil) (nat_lit 12372) (nat_lit 12372) (nat_lit 2560) (.node .nil (nat_lit 12374) (nat_lit 12374) (nat_lit 2560) .nil)) (nat_lit 12376) (nat_lit 12376) (nat_lit 2560) (.node (.node .nil (nat_lit 12378) (nat_lit 12378) (nat_lit 2560) .nil) (nat_lit 12380) (nat_lit 12380) (nat_lit 2560) .nil)) (nat_lit 12382) (nat_lit 12382) (nat_lit 2560) (.node (.node (.node .nil (nat_lit 12384) (nat_lit 12384) (nat_lit 2560) .nil) (nat_lit 12386) (nat_lit 12386) (nat_lit 2560) .nil) (nat_lit 12389) (nat_lit 12389) (nat_lit 2560) (.node (.node .nil (nat_lit 12391) (nat_lit 12391) (nat_lit 2560) .nil) (nat_lit 12393) (nat_lit 12393) (nat_lit 2560) .nil))))) (nat_lit 12400) (nat_lit 12401) (nat_lit 2560) (.node (.node (.node (.node (.node (.node .nil (nat_lit 12403) (nat_lit 12404) (nat_lit 2560) .nil) (nat_lit 12406) (nat_lit 12407) (nat_lit 2560) (.node .nil (nat_lit 12409) (nat_lit 12410) (nat_lit 2560) .nil)) (nat_lit 12412) (nat_lit 12413) (nat_lit 2560) (.node (.node .nil (nat_lit 12436) (nat_lit 12436) (nat_lit 2560) .nil) (nat_lit 12441) (nat_lit 12442) (nat_lit 20488) .nil)) (nat_lit 12443) (nat_lit 12444) (nat_lit 34816) (.node (.node (.node .nil (nat_lit 12446) (nat_lit 12446) (nat_lit 2560) .nil) (nat_lit 12447) (nat_lit 12447) (nat_lit 34816) (.node .nil (nat_lit 12460) (nat_lit 12460) (nat_lit 2560) .nil)) (nat_lit 12462) (nat_lit 12462) (nat_lit 2560) (.node (.node .nil (nat_lit 12464) (nat_lit 12464) (nat_lit 2560) .nil) (nat_lit 12466) (nat_lit 12466) (nat_lit 2560) .nil))) (nat_lit 12468) (nat_lit 12468) (nat_lit 2560) (.node (.node (.node (.node .nil (nat_lit 12470) (nat_lit 12470) (nat_lit 2560) .nil) (nat_lit 12472) (nat_lit 12472) (nat_lit 2560) (.node .nil (nat_lit 12474) (nat_lit 12474) (nat_lit 2560) .nil)) (nat_lit 12476) (nat_lit 12476) (nat_lit 2560) (.node (.node .nil (nat_lit 12478) (nat_lit 12478) (nat_lit 2560) .nil) (nat_lit 12480) (nat_lit 12480) (nat_lit 2560) .nil)) (nat_lit 12482) (nat_lit 12482) (nat_lit 2560) (.node (.node (.node .nil (nat_lit 12485) (nat_lit 12485) (nat_lit 2560) .nil) (nat_lit 12487) (nat_lit 12487) (nat_lit 2560) .nil) (nat_lit 12489) (nat_lit 12489) (nat_lit 2560) (.node (.node .nil (nat_lit 12496) (nat_lit 12497) (nat_lit 2560) .nil) (nat_lit 12499) (nat_lit 12500) (nat_lit 2560) .nil)))) (nat_lit 12502) (nat_lit 12503) (nat_lit 2560) (.node (.node (.node (.node (.node .nil (nat_lit 12505) (nat_lit 12506) (nat_lit 2560) .nil) (nat_lit 12508) (nat_lit 12509) (nat_lit 2560) (.node .nil (nat_lit 12532) (nat_lit 12532) (nat_lit 2560) .nil)) (nat_lit 12535) (nat_lit 12538) (nat_lit 2560) (.node (.node .nil (nat_lit 12542) (nat_lit 12542) (nat_lit 2560) .nil) (nat_lit 12543) (nat_lit 12543) (nat_lit 34816) .nil)) (nat_lit 12593) (nat_lit 12686) (nat_lit 34816) (.node (.node (.node .nil (nat_lit 12690) (nat_lit 12703) (nat_lit 34816) .nil) (nat_lit 12800) (nat_lit 12830) (nat_lit 34816) .nil) (nat_lit 12832) (nat_lit 12871) (nat_lit 34816) (.node (.node .nil (nat_lit 12880) (nat_lit 12926) (nat_lit 34816) .nil) (nat_lit 12928) (nat_lit 13311) (nat_lit 34816) .nil))) (nat_lit 42607) (nat_lit 42607) (nat_lit 230) (.node (.node (.node (.node .nil (nat_lit 42612) (nat_lit 42621) (nat_lit 230) .nil) (nat_lit 42652) (nat_lit 42653) (nat_lit 34816) (.node .nil (nat_lit 42654) (nat_lit 42655) (nat_lit 230) .nil)) (nat_lit 42736) (nat_lit 42737) (nat_lit 230) (.node (.node .nil (nat_lit 42864) (nat_lit 42864) (nat_lit 34816) .nil) (nat_lit 43000) (nat_lit 43001) (nat_lit 34816) .nil)) (nat_lit 43014) (nat_lit 43014) (nat_lit 9) (.node (.node (.node .nil (nat_lit 43204) (nat_lit 43204) (nat_lit 9) .nil) (nat_lit 43232) (nat_lit 43249) (nat_lit 230) .nil) (nat_lit 43307) (nat_lit 43309) (nat_lit 220) (.node (.node .nil (nat_lit 43347) (nat_lit 43347) (nat_lit 9) .nil) (nat_lit 43443) (nat_lit 43443) (nat_lit 7) .nil)))))

def classT110 : RTree :=
  .node (.node (.node (.node (.node (.node (.node .nil (nat_lit 43696) (nat_lit 43696) (nat_lit 230) .nil) (nat_lit 43698) (nat_lit 43699) (nat_lit 230) (.node .nil (nat_lit 43700) (nat_lit 43700) (nat_lit 220) .nil)) (nat_lit 43703) (nat_lit 43704) (nat_lit 230) (.node (.node .nil (nat_lit 43710) (nat_lit 43711) (nat_lit 230) .nil) (nat_lit 43713) (nat_lit 43713) (nat_lit 230) .nil)) (nat_lit 43766) (nat_lit 43766) (nat_lit 9) (.node (.node (.node .nil (nat_lit 43868) (nat_lit 43871) (nat_lit 34816) .nil) (nat_lit 44013) (nat_lit 44013) (nat_lit 9) (.node .nil (nat_lit 44032) (nat_lit 55203) (nat_lit 2560) .nil)) (nat_lit 63744) (nat_lit 64013) (nat_lit 43520) (.node (.node .nil (nat_lit 64016) (nat_lit 64016) (nat_lit 43520) .nil) (nat_lit 64018) (nat_lit 64018) (nat_lit 43520) .nil))) (nat_lit 64021) (nat_lit 64030) (nat_lit 43520) (.node (.node (.node (.node .nil (nat_lit 64032) (nat_lit 64032) (nat_lit 43520) .nil) (nat_lit 64034) (nat_lit 64034) (nat_lit 43520) (.node .nil (nat_lit 64037) (nat_lit 64038) (nat_lit 43520) .nil)) (nat_lit 64042) (nat_lit 64109) (nat_lit 43520) (.node (.node .nil (nat_lit 64112) (nat_lit 64217) (nat_lit 43520) .nil) (nat_lit 64256) (nat_lit 64262) (nat_lit 34816) .nil)) (nat_lit 64275) (nat_lit 64279) (nat_lit 34816) (.node (.node (.node .nil (nat_lit 64285) (nat_lit 64285) (nat_lit 43520) .nil) (nat_lit 64286) (nat_lit 64286) (nat_lit 26) .nil) (nat_lit 64287) (nat_lit 64287) (nat_lit 43520) (.node (.node .nil (nat_lit 64288) (nat_lit 64297) (nat_lit 34816) .nil) (nat_lit 64298) (nat_lit 64310) (nat_lit 43520) .nil)))) (nat_lit 64312) (nat_lit 64316) (nat_lit 43520) (.node (.node (.node (.node (.node .nil (nat_lit 64318) (nat_lit 64318) (nat_lit 43520) .nil) (nat_lit 64320) (nat_lit 64321) (nat_lit 43520) (.node .nil (nat_lit 64323) (nat_lit 64324) (nat_lit 43520) .nil)) (nat_lit 64326) (nat_lit 64334) (nat_lit 43520) (.node (.node .nil (nat_lit 64335) (nat_lit 64433) (nat_lit 34816) .nil) (nat_lit 64467) (nat_lit 64829) (nat_lit 34816) .nil)) (nat_lit 64848) (nat_lit 64911) (nat_lit 34816) (.node (.node (.node .nil (nat_lit 64914) (nat_lit 64967) (nat_lit 34816) .nil) (nat_lit 65008) (nat_lit 65020) (nat_lit 34816) (.node .nil (nat_lit 65040) (nat_lit 65049) (nat_lit 34816) .nil)) (nat_lit 65056) (nat_lit 65062) (nat_lit 230) (.node (.node .nil (nat_lit 65063) (nat_lit 65069) (nat_lit 220) .nil) (nat_lit 65070) (nat_lit 65071) (nat_lit 230) .nil))) (nat_lit 65072) (nat_lit 65092) (nat_lit 34816) (.node (.node (.node (.node .nil (nat_lit 65095) (nat_lit 65106) (nat_lit 34816) .nil) (nat_lit 65108) (nat_lit 65126) (nat_lit 34816) (.node .nil (nat_lit 65128) (nat_lit 65131) (nat_lit 34816) .nil)) (nat_lit 65136) (nat_lit 65138) (nat_lit 34816) (.node (.node .nil (nat_lit 65140) (nat_lit 65140) (nat_lit 34816) .nil) (nat_lit 65142) (nat_lit 65276) (nat_lit 34816) .nil)) (nat_lit 65281) (nat_lit 65470) (nat_lit 34816) (.node (.node (.node .nil (nat_lit 65474) (nat_lit 65479) (nat_lit 34816) .nil) (nat_lit 65482) (nat_lit 65487) (nat_lit 34816) .nil) (nat_lit 65490) (nat_lit 65495) (nat_lit 34816) (.node (.node .nil (nat_lit 65498) (nat_lit 65500) (nat_lit 34816) .nil) (nat_lit 65504) (nat_lit 65510) (nat_lit 34816) .nil))))) (nat_lit 65512) (nat_lit 65518) (nat_lit 34816) (.node (.node (.node (.node (.node (.node .nil (nat_lit 66045) (nat_lit 66045) (nat_lit 220) .nil) (nat_lit 66272) (nat_lit 66272) (nat_lit 220) (.node .nil (nat_lit 66422) (nat_lit 66426) (nat_lit 230) .nil)) (nat_lit 68109) (nat_lit 68109) (nat_lit 220) (.node (.node .nil (nat_lit 68111) (nat_lit 68111) (nat_lit 230) .nil) (nat_lit 68152) (nat_lit 68152) (nat_lit 230) .nil)) (nat_lit 68153) (nat_lit 68153) (nat_lit 1) (.node (.node (.node .nil (nat_lit 68154) (nat_lit 68154) (nat_lit 220) .nil) (nat_lit 68159) (nat_lit 68159) (nat_lit 9) (.node .nil (nat_lit 68325) (nat_lit 68325) (nat_lit 230) .nil)) (nat_lit 68326) (nat_lit 68326) (nat_lit 220) (.node (.node .nil (nat_lit 68900) (nat_lit 68903) (nat_lit 230) .nil) (nat_lit 69446) (nat_lit 69447) (nat_lit 220) .nil))) (nat_lit 69448) (nat_lit 69450) (nat_lit 230) (.node (.node (.node (.node .nil (nat_lit 69451) (nat_lit 69451) (nat_lit 220) .nil) (nat_lit 69452) (nat_lit 69452) (nat_lit 230) (.node .nil (nat_lit 69453) (nat_lit 69456) (nat_lit 220) .nil)) (nat_lit 69702) (nat_lit 69702) (nat_lit 9) (.node (.node .nil (nat_lit 69759) (nat_lit 69759) (nat_lit 9) .nil) (nat_lit 69786) (nat_lit 69786) (nat_lit 2560) .nil)) (nat_lit 69788) (nat_lit 69788) (nat_lit 2560) (.node (.node (.node .nil (nat_lit 69803) (nat_lit 69803) (nat_lit 2560) .nil) (nat_lit 69817) (nat_lit 69817) (nat_lit 9) .nil) (nat_lit 69818) (nat_lit 69818) (nat_lit 20487) (.node (.node .nil (nat_lit 69888) (nat_lit 69890) (nat_lit 230) .nil) (nat_lit 69927) (nat_lit 69927) (nat_lit 20480) .nil)))) (nat_lit 69934) (nat_lit 69935) (nat_lit 2560) (.node (.node (.node (.node (.node .nil (nat_lit 69939) (nat_lit 69940) (nat_lit 9) .nil) (nat_lit 70003) (nat_lit 70003) (nat_lit 7) (.node .nil (nat_lit 70080) (nat_lit 70080) (nat_lit 9) .nil)) (nat_lit 70090) (nat_lit 70090) (nat_lit 7) (.node (.node .nil (nat_lit 70197) (nat_lit 70197) (nat_lit 9) .nil) (nat_lit 70198) (nat_lit 70198) (nat_lit 7) .nil)) (nat_lit 70377) (nat_lit 70377) (nat_lit 7) (.node (.node (.node .nil (nat_lit 70378) (nat_lit 70378) (nat_lit 9) .nil) (nat_lit 70459) (nat_lit 70460) (nat_lit 7) .nil) (nat_lit 70462) (nat_lit 70462) (nat_lit 20480) (.node (.node .nil (nat_lit 70475) (nat_lit 70476) (nat_lit 2560) .nil) (nat_lit 70477) (nat_lit 70477) (nat_lit 9) .nil))) (nat_lit 70487) (nat_lit 70487) (nat_lit 20480) (.node (.node (.node (.node .nil (nat_lit 70502) (nat_lit 70508) (nat_lit 230) .nil) (nat_lit 70512) (nat_lit 70516) (nat_lit 230) (.node .nil (nat_lit 70722) (nat_lit 70722) (nat_lit 9) .nil)) (nat_lit 70726) (nat_lit 70726) (nat_lit 7) (.node (.node .nil (nat_lit 70750) (nat_lit 70750) (nat_lit 230) .nil) (nat_lit 70832) (nat_lit 70832) (nat_lit 20480) .nil)) (nat_lit 70842) (nat_lit 70842) (nat_lit 20480) (.node (.node (.node .nil (nat_lit 70843) (nat_lit 70844) (nat_lit 2560) .nil) (nat_lit 70845) (nat_lit 70845) (nat_lit 20480) .nil) (nat_lit 70846) (nat_lit 70846) (nat_lit 2560) (.node (.node .nil (nat_lit 70850) (nat_lit 70850) (nat_lit 9) .nil) (nat_lit 70851) (nat_lit 70851) (nat_lit 7) .nil)))))

def classT111 : RTree :=
  .node (.node (.node (.node (.node (.node (.node .nil (nat_lit 71098) (nat_lit 71099) (nat_lit 2560) .nil) (nat_lit 71103) (nat_lit 71103) (nat_lit 9) (.node .nil (nat_lit 71104) (nat_lit 71104) (nat_lit 7) .nil)) (nat_lit 71231) (nat_lit 71231) (nat_lit 9) (.node (.node .nil (nat_lit 71350) (nat_lit 71350) (nat_lit 9) .nil) (nat_lit 71351) (nat_lit 71351) (nat_lit 7) .nil)) (nat_lit 71467) (nat_lit 71467) (nat_lit 9) (.node (.node (.node .nil (nat_lit 71737) (nat_lit 71737) (nat_lit 9) .nil) (nat_lit 71738) (nat_lit 71738) (nat_lit 7) (.node .nil (nat_lit 72160) (nat_lit 72160) (nat_lit 9) .nil)) (nat_lit 72244) (nat_lit 72244) (nat_lit 9) (.node (.node .nil (nat_lit 72263) (nat_lit 72263) (nat_lit 9) .nil) (nat_lit 72345) (nat_lit 72345) (nat_lit 9) .nil))) (nat_lit 72767) (nat_lit 72767) (nat_lit 9) (.node (.node (.node (.node .nil (nat_lit 73026) (nat_lit 73026) (nat_lit 7) .nil) (nat_lit 73028) (nat_lit 73029) (nat_lit 9) (.node .nil (nat_lit 73111) (nat_lit 73111) (nat_lit 9) .nil)) (nat_lit 92912) (nat_lit 92916) (nat_lit 1) (.node (.node .nil (nat_lit 92976) (nat_lit 92982) (nat_lit 230) .nil) (nat_lit 113822) (nat_lit 113822) (nat_lit 1) .nil)) (nat_lit 119134) (nat_lit 119140) (nat_lit 43520) (.node (.node (.node .nil (nat_lit 119141) (nat_lit 119142) (nat_lit 216) .nil) (nat_lit 119143) (nat_lit 119145) (nat_lit 1) .nil) (nat_lit 119149) (nat_lit 119149) (nat_lit 226) (.node (.node .nil (nat_lit 119150) (nat_lit 119154) (nat_lit 216) .nil) (nat_lit 119163) (nat_lit 119170) (nat_lit 220) .nil)))) (nat_lit 119173) (nat_lit 119177) (nat_lit 230) (.node (.node (.node (.node (.node .nil (nat_lit 119178) (nat_lit 119179) (nat_lit 220) .nil) (nat_lit 119210) (nat_lit 119213) (nat_lit 230) (.node .nil (nat_lit 119227) (nat_lit 119232) (nat_lit 43520) .nil)) (nat_lit 119362) (nat_lit 119364) (nat_lit 230) (.node (.node .nil (nat_lit 119808) (nat_lit 119892) (nat_lit 34816) .nil) (nat_lit 119894) (nat_lit 119964) (nat_lit 34816) .nil)) (nat_lit 119966) (nat_lit 119967) (nat_lit 34816) (.node (.node (.node .nil (nat_lit 119970) (nat_lit 119970) (nat_lit 34816) .nil) (nat_lit 119973) (nat_lit 119974) (nat_lit 34816) .nil) (nat_lit 119977) (nat_lit 119980) (nat_lit 34816) (.node (.node .nil (nat_lit 119982) (nat_lit 119993) (nat_lit 34816) .nil) (nat_lit 119995) (nat_lit 119995) (nat_lit 34816) .nil))) (nat_lit 119997) (nat_lit 120003) (nat_lit 34816) (.node (.node (.node (.node .nil (nat_lit 120005) (nat_lit 120069) (nat_lit 34816) .nil) (nat_lit 120071) (nat_lit 120074) (nat_lit 34816) (.node .nil (nat_lit 120077) (nat_lit 120084) (nat_lit 34816) .nil)) (nat_lit 120086) (nat_lit 120092) (nat_lit 34816) (.node (.node .nil (nat_lit 120094) (nat_lit 120121) (nat_lit 34816) .nil) (nat_lit 120123) (nat_lit 120126) (nat_lit 34816) .nil)) (nat_lit 120128) (nat_lit 120132) (nat_lit 34816) (.node (.node (.node .nil (nat_lit 120134) (nat_lit 120134) (nat_lit 34816) .nil) (nat_lit 120138) (nat_lit 120144) (nat_lit 34816) .nil) (nat_lit 120146) (nat_lit 120485) (nat_lit 34816) (.node (.node .nil (nat_lit 120488) (nat_lit 120779) (nat_lit 34816) .nil) (nat_lit 120782) (nat_lit 120831) (nat_lit 34816) .nil))))) (nat_lit 122880) (nat_lit 122886) (nat_lit 230) (.node (.node (.node (.node (.node (.node .nil (nat_lit 122888) (nat_lit 122904) (nat_lit 230) .nil) (nat_lit 122907) (nat_lit 122913) (nat_lit 230) (.node .nil (nat_lit 122915) (nat_lit 122916) (nat_lit 230) .nil)) (nat_lit 122918) (nat_lit 122922) (nat_lit 230) (.node (.node .nil (nat_lit 123184) (nat_lit 123190) (nat_lit 230) .nil) (nat_lit 123628) (nat_lit 123631) (nat_lit 230) .nil)) (nat_lit 125136) (nat_lit 125142) (nat_lit 220) (.node (.node (.node .nil (nat_lit 125252) (nat_lit 125257) (nat_lit 230) .nil) (nat_lit 125258) (nat_lit 125258) (nat_lit 7) (.node .nil (nat_lit 126464) (nat_lit 126467) (nat_lit 34816) .nil)) (nat_lit 126469) (nat_lit 126495) (nat_lit 34816) (.node (.node .nil (nat_lit 126497) (nat_lit 126498) (nat_lit 34816) .nil) (nat_lit 126500) (nat_lit 126500) (nat_lit 34816) .nil))) (nat_lit 126503) (nat_lit 126503) (nat_lit 34816) (.node (.node (.node (.node .nil (nat_lit 126505) (nat_lit 126514) (nat_lit 34816) .nil) (nat_lit 126516) (nat_lit 126519) (nat_lit 34816) (.node .nil (nat_lit 126521) (nat_lit 126521) (nat_lit 34816) .nil)) (nat_lit 126523) (nat_lit 126523) (nat_lit 34816) (.node (.node .nil (nat_lit 126530) (nat_lit 126530) (nat_lit 34816) .nil) (nat_lit 126535) (nat_lit 126535) (nat_lit 34816) .nil)) (nat_lit 126537) (nat_lit 126537) (nat_lit 34816) (.node (.node (.node .nil (nat_lit 126539) (nat_lit 126539) (nat_lit 34816) .nil) (nat_lit 126541) (nat_lit 126543) (nat_lit 34816) .nil) (nat_lit 126545) (nat_lit 126546) (nat_lit 34816) (.node (.node .nil (nat_lit 126548) (nat_lit 126548) (nat_lit 34816) .nil) (nat_lit 126551) (nat_lit 126551) (nat_lit 34816) .nil)))) (nat_lit 126553) (nat_lit 126553) (nat_lit 34816) (.node (.node (.node (.node (.node .nil (nat_lit 126555) (nat_lit 126555) (nat_lit 34816) .nil) (nat_lit 126557) (nat_lit 126557) (nat_lit 34816) (.node .nil (nat_lit 126559) (nat_lit 126559) (nat_lit 34816) .nil)) (nat_lit 126561) (nat_lit 126562) (nat_lit 34816) (.node (.node .nil (nat_lit 126564) (nat_lit 126564) (nat_lit 34816) .nil) (nat_lit 126567) (nat_lit 126570) (nat_lit 34816) .nil)) (nat_lit 126572) (nat_lit 126578) (nat_lit 34816) (.node (.node (.node .nil (nat_lit 126580) (nat_lit 126583) (nat_lit 34816) .nil) (nat_lit 126585) (nat_lit 126588) (nat_lit 34816) .nil) (nat_lit 126590) (nat_lit 126590) (nat_lit 34816) (.node (.node .nil (nat_lit 126592) (nat_lit 126601) (nat_lit 34816) .nil) (nat_lit 126603) (nat_lit 126619) (nat_lit 34816) .nil))) (nat_lit 126625) (nat_lit 126627) (nat_lit 34816) (.node (.node (.node (.node .nil (nat_lit 126629) (nat_lit 126633) (nat_lit 34816) .nil) (nat_lit 126635) (nat_lit 126651) (nat_lit 34816) (.node .nil (nat_lit 127232) (nat_lit 127242) (nat_lit 34816) .nil)) (nat_lit 127248) (nat_lit 127278) (nat_lit 34816) (.node (.node .nil (nat_lit 127280) (nat_lit 127311) (nat_lit 34816) .nil) (nat_lit 127338) (nat_lit 127340) (nat_lit 34816) .nil)) (nat_lit 127376) (nat_lit 127376) (nat_lit 34816) (.node (.node (.node .nil (nat_lit 127488) (nat_lit 127490) (nat_lit 34816) .nil) (nat_lit 127504) (nat_lit 127547) (nat_lit 34816) .nil) (nat_lit 127552) (nat_lit 127560) (nat_lit 34816) (.node (.node .nil (nat_lit 127568) (nat_lit 127569) (nat_lit 34816) .nil) (nat_lit 194560) (nat_lit 195101) (nat_lit 43520) .nil)))))

/-- `combining + 256 * normalization_quick_check` of `_PyUnicode_Database_Records`, by ranges. -/
def classT : RTree :=
  .node (.node (.node classT000 (nat_lit 1024) (nat_lit 1025) (nat_lit 2560) classT001) (nat_lit 2034) (nat_lit 2034) (nat_lit 220) (.node classT010 (nat_lit 3957) (nat_lit 3958) (nat_lit 43520) classT011)) (nat_lit 8025) (nat_lit 8025) (nat_lit 2560) (.node (.node classT100 (nat_lit 8748) (nat_lit 8749) (nat_lit 34816) classT101) (nat_lit 43456) (nat_lit 43456) (nat_lit 9) (.node classT110 (nat_lit 71087) (nat_lit 71087) (nat_lit 20480) classT111))

def decT000000 : Tree :=
  .node (.node (.node (.node (.node (.node (.node .nil (nat_lit 160) (nat_lit 65) .nil) (nat_lit 168) (nat_lit 3254779969) .nil) (nat_lit 170) (nat_lit 195) (.node (.node .nil (nat_lit 175) (nat_lit 3238002753) .nil) (nat_lit 178) (nat_lit 101) .nil)) (nat_lit 179) (nat_lit 103) (.node (.node (.node .nil (nat_lit 180) (nat_lit 3225419841) .nil) (nat_lit 181) (nat_lit 1913) .nil) (nat_lit 184) (nat_lit 3384803393) (.node (.node .nil (nat_lit 185) (nat_lit 99) .nil) (nat_lit 186) (nat_lit 223) .nil))) (nat_lit 188) (nat_lit 457431482105955) (.node (.node (.node (.node .nil (nat_lit 189) (nat_lit 439839296061539) .nil) (nat_lit 190) (nat_lit 457431482105959) .nil) (nat_lit 192) (nat_lit 3221225602) (.node (.node .nil (nat_lit 193) (nat_lit 3225419906) .nil) (nat_lit 194) (nat_lit 3229614210) .nil)) (nat_lit 195) (nat_lit 3233808514) (.node (.node (.node .nil (nat_lit 196) (nat_lit 3254780034) .nil) (nat_lit 197) (nat_lit 3263168642) .nil) (nat_lit 199) (nat_lit 3384803462) (.node .nil (nat_lit 200) (nat_lit 3221225610) .nil)))) (nat_lit 201) (nat_lit 3225419914) (.node (.node (.node (.node (.node .nil (nat_lit 202) (nat_lit 3229614218) .nil) (nat_lit 203) (nat_lit 3254780042) .nil) (nat_lit 204) (nat_lit 3221225618) (.node (.node .nil (nat_lit 205) (nat_lit 3225419922) .nil) (nat_lit 206) (nat_lit 3229614226) .nil)) (nat_lit 207) (nat_lit 3254780050) (.node (.node (.node .nil (nat_lit 209) (nat_lit 3233808540) .nil) (nat_lit 210) (nat_lit 3221225630) .nil) (nat_lit 211) (nat_lit 3225419934) (.node .nil (nat_lit 212) (nat_lit 3229614238) .nil))) (nat_lit 213) (nat_lit 3233808542) (.node (.node (.node (.node .nil (nat_lit 214) (nat_lit 3254780062) .nil) (nat_lit 217) (nat_lit 3221225642) .nil) (nat_lit 218) (nat_lit 3225419946) (.node (.node .nil (nat_lit 219) (nat_lit 3229614250) .nil) (nat_lit 220) (nat_lit 3254780074) .nil)) (nat_lit 221) (nat_lit 3225419954) (.node (.node (.node .nil (nat_lit 224) (nat_lit 3221225666) .nil) (nat_lit 225) (nat_lit 3225419970) .nil) (nat_lit 226) (nat_lit 3229614274) (.node .nil (nat_lit 227) (nat_lit 3233808578) .nil))))) (nat_lit 228) (nat_lit 3254780098) (.node (.node (.node (.node (.node (.node .nil (nat_lit 229) (nat_lit 3263168706) .nil) (nat_lit 231) (nat_lit 3384803526) .nil) (nat_lit 232) (nat_lit 3221225674) (.node (.node .nil (nat_lit 233) (nat_lit 3225419978) .nil) (nat_lit 234) (nat_lit 3229614282) .nil)) (nat_lit 235) (nat_lit 3254780106) (.node (.node (.node .nil (nat_lit 236) (nat_lit 3221225682) .nil) (nat_lit 237) (nat_lit 3225419986) .nil) (nat_lit 238) (nat_lit 3229614290) (.node (.node .nil (nat_lit 239) (nat_lit 3254780114) .nil) (nat_lit 241) (nat_lit 3233808604) .nil))) (nat_lit 242) (nat_lit 3221225694) (.node (.node (.node (.node .nil (nat_lit 243) (nat_lit 3225419998) .nil) (nat_lit 244) (nat_lit 3229614302) .nil) (nat_lit 245) (nat_lit 3233808606) (.node (.node .nil (nat_lit 246) (nat_lit 3254780126) .nil) (nat_lit 249) (nat_lit 3221225706) .nil)) (nat_lit 250) (nat_lit 3225420010) (.node (.node (.node .nil (nat_lit 251) (nat_lit 3229614314) .nil) (nat_lit 252) (nat_lit 3254780138) .nil) (nat_lit 253) (nat_lit 3225420018) (.node .nil (nat_lit 255) (nat_lit 3254780146) .nil)))) (nat_lit 256) (nat_lit 3238002818) (.node (.node (.node (.node (.node .nil (nat_lit 257) (nat_lit 3238002882) .nil) (nat_lit 258) (nat_lit 3246391426) .nil) (nat_lit 259) (nat_lit 3246391490) (.node (.node .nil (nat_lit 260) (nat_lit 3388997762) .nil) (nat_lit 261) (nat_lit 3388997826) .nil)) (nat_lit 262) (nat_lit 3225419910) (.node (.node (.node .nil (nat_lit 263) (nat_lit 3225419974) .nil) (nat_lit 264) (nat_lit 3229614214) .nil) (nat_lit 265) (nat_lit 3229614278) (.node .nil (nat_lit 266) (nat_lit 3250585734) .nil))) (nat_lit 267) (nat_lit 3250585798) (.node (.node (.node (.node .nil (nat_lit 268) (nat_lit 3271557254) .nil) (nat_lit 269) (nat_lit 3271557318) .nil) (nat_lit 270) (nat_lit 3271557256) (.node (.node .nil (nat_lit 271) (nat_lit 3271557320) .nil) (nat_lit 274) (nat_lit 3238002826) .nil)) (nat_lit 275) (nat_lit 3238002890) (.node (.node (.node .nil (nat_lit 276) (nat_lit 3246391434) .nil) (nat_lit 277) (nat_lit 3246391498) .nil) (nat_lit 278) (nat_lit 3250585738) (.node .nil (nat_lit 279) (nat_lit 3250585802) .nil)))))

def decT000001 : Tree :=
  .node (.node (.node (.node (.node (.node (.node .nil (nat_lit 281) (nat_lit 3388997834) .nil) (nat_lit 282) (nat_lit 3271557258) .nil) (nat_lit 283) (nat_lit 3271557322) (.node (.node .nil (nat_lit 284) (nat_lit 3229614222) .nil) (nat_lit 285) (nat_lit 3229614286) .nil)) (nat_lit 286) (nat_lit 3246391438) (.node (.node (.node .nil (nat_lit 287) (nat_lit 3246391502) .nil) (nat_lit 288) (nat_lit 3250585742) .nil) (nat_lit 289) (nat_lit 3250585806) (.node (.node .nil (nat_lit 290) (nat_lit 3384803470) .nil) (nat_lit 291) (nat_lit 3384803534) .nil))) (nat_lit 292) (nat_lit 3229614224) (.node (.node (.node (.node .nil (nat_lit 293) (nat_lit 3229614288) .nil) (nat_lit 296) (nat_lit 3233808530) .nil) (nat_lit 297) (nat_lit 3233808594) (.node (.node .nil (nat_lit 298) (nat_lit 3238002834) .nil) (nat_lit 299) (nat_lit 3238002898) .nil)) (nat_lit 300) (nat_lit 3246391442) (.node (.node (.node .nil (nat_lit 301) (nat_lit 3246391506) .nil) (nat_lit 302) (nat_lit 3388997778) .nil) (nat_lit 303) (nat_lit 3388997842) (.node .nil (nat_lit 304) (nat_lit 3250585746) .nil)))) (nat_lit 306) (nat_lit 310378643) (.node (.node (.node (.node (.node .nil (nat_lit 307) (nat_lit 444596435) .nil) (nat_lit 308) (nat_lit 3229614228) .nil) (nat_lit 309) (nat_lit 3229614292) (.node (.node .nil (nat_lit 310) (nat_lit 3384803478) .nil) (nat_lit 311) (nat_lit 3384803542) .nil)) (nat_lit 313) (nat_lit 3225419928) (.node (.node (.node .nil (nat_lit 314) (nat_lit 3225419992) .nil) (nat_lit 315) (nat_lit 3384803480) .nil) (nat_lit 316) (nat_lit 3384803544) (.node .nil (nat_lit 317) (nat_lit 3271557272) .nil))) (nat_lit 318) (nat_lit 3271557336) (.node (.node (.node (.node .nil (nat_lit 319) (nat_lit 767557785) .nil) (nat_lit 320) (nat_lit 767557849) .nil) (nat_lit 323) (nat_lit 3225419932) (.node (.node .nil (nat_lit 324) (nat_lit 3225419996) .nil) (nat_lit 325) (nat_lit 3384803484) .nil)) (nat_lit 326) (nat_lit 3384803548) (.node (.node (.node .nil (nat_lit 327) (nat_lit 3271557276) .nil) (nat_lit 328) (nat_lit 3271557340) .nil) (nat_lit 329) (nat_lit 461374841) (.node .nil (nat_lit 332) (nat_lit 3238002846) .nil))))) (nat_lit 333) (nat_lit 3238002910) (.node (.node (.node (.node (.node (.node .nil (nat_lit 334) (nat_lit 3246391454) .nil) (nat_lit 335) (nat_lit 3246391518) .nil) (nat_lit 336) (nat_lit 3267362974) (.node (.node .nil (nat_lit 337) (nat_lit 3267363038) .nil) (nat_lit 340) (nat_lit 3225419940) .nil)) (nat_lit 341) (nat_lit 3225420004) (.node (.node (.node .nil (nat_lit 342) (nat_lit 3384803492) .nil) (nat_lit 343) (nat_lit 3384803556) .nil) (nat_lit 344) (nat_lit 3271557284) (.node .nil (nat_lit 345) (nat_lit 3271557348) .nil))) (nat_lit 346) (nat_lit 3225419942) (.node (.node (.node (.node .nil (nat_lit 347) (nat_lit 3225420006) .nil) (nat_lit 348) (nat_lit 3229614246) .nil) (nat_lit 349) (nat_lit 3229614310) (.node (.node .nil (nat_lit 350) (nat_lit 3384803494) .nil) (nat_lit 351) (nat_lit 3384803558) .nil)) (nat_lit 352) (nat_lit 3271557286) (.node (.node (.node .nil (nat_lit 353) (nat_lit 3271557350) .nil) (nat_lit 354) (nat_lit 3384803496) .nil) (nat_lit 355) (nat_lit 3384803560) (.node .nil (nat_lit 356) (nat_lit 3271557288) .nil)))) (nat_lit 357) (nat_lit 3271557352) (.node (.node (.node (.node (.node .nil (nat_lit 360) (nat_lit 3233808554) .nil) (nat_lit 361) (nat_lit 3233808618) .nil) (nat_lit 362) (nat_lit 3238002858) (.node (.node .nil (nat_lit 363) (nat_lit 3238002922) .nil) (nat_lit 364) (nat_lit 3246391466) .nil)) (nat_lit 365) (nat_lit 3246391530) (.node (.node (.node .nil (nat_lit 366) (nat_lit 3263168682) .nil) (nat_lit 367) (nat_lit 3263168746) .nil) (nat_lit 368) (nat_lit 3267362986) (.node .nil (nat_lit 369) (nat_lit 3267363050) .nil))) (nat_lit 370) (nat_lit 3388997802) (.node (.node (.node (.node .nil (nat_lit 371) (nat_lit 3388997866) .nil) (nat_lit 372) (nat_lit 3229614254) .nil) (nat_lit 373) (nat_lit 3229614318) (.node (.node .nil (nat_lit 374) (nat_lit 3229614258) .nil) (nat_lit 375) (nat_lit 3229614322) .nil)) (nat_lit 376) (nat_lit 3254780082) (.node (.node (.node .nil (nat_lit 377) (nat_lit 3225419956) .nil) (nat_lit 378) (nat_lit 3225420020) .nil) (nat_lit 379) (nat_lit 3250585780) (.node .nil (nat_lit 380) (nat_lit 3250585844) .nil)))))

def decT000010 : Tree :=
  .node (.node (.node (.node (.node (.node (.node .nil (nat_lit 382) (nat_lit 3271557364) .nil) (nat_lit 383) (nat_lit 231) .nil) (nat_lit 416) (nat_lit 3334471838) (.node (.node .nil (nat_lit 417) (nat_lit 3334471902) .nil) (nat_lit 431) (nat_lit 3334471850) .nil)) (nat_lit 432) (nat_lit 3334471914) (.node (.node (.node .nil (nat_lit 452) (nat_lit 1598029961) .nil) (nat_lit 453) (nat_lit 1602224265) .nil) (nat_lit 454) (nat_lit 1602224329) (.node (.node .nil (nat_lit 455) (nat_lit 310378649) .nil) (nat_lit 456) (nat_lit 444596377) .nil))) (nat_lit 457) (nat_lit 444596441) (.node (.node (.node (.node .nil (nat_lit 458) (nat_lit 310378653) .nil) (nat_lit 459) (nat_lit 444596381) .nil) (nat_lit 460) (nat_lit 444596445) (.node (.node .nil (nat_lit 461) (nat_lit 3271557250) .nil) (nat_lit 462) (nat_lit 3271557314) .nil)) (nat_lit 463) (nat_lit 3271557266) (.node (.node (.node .nil (nat_lit 464) (nat_lit 3271557330) .nil) (nat_lit 465) (nat_lit 3271557278) .nil) (nat_lit 466) (nat_lit 3271557342) (.node .nil (nat_lit 467) (nat_lit 3271557290) .nil)))) (nat_lit 468) (nat_lit 3271557354) (.node (.node (.node (.node (.node .nil (nat_lit 469) (nat_lit 3238003128) .nil) (nat_lit 470) (nat_lit 3238003192) .nil) (nat_lit 471) (nat_lit 3225420216) (.node (.node .nil (nat_lit 472) (nat_lit 3225420280) .nil) (nat_lit 473) (nat_lit 3271557560) .nil)) (nat_lit 474) (nat_lit 3271557624) (.node (.node (.node .nil (nat_lit 475) (nat_lit 3221225912) .nil) (nat_lit 476) (nat_lit 3221225976) .nil) (nat_lit 478) (nat_lit 3238003080) (.node .nil (nat_lit 479) (nat_lit 3238003144) .nil))) (nat_lit 480) (nat_lit 3238003788) (.node (.node (.node (.node .nil (nat_lit 481) (nat_lit 3238003790) .nil) (nat_lit 482) (nat_lit 3238003084) .nil) (nat_lit 483) (nat_lit 3238003148) (.node (.node .nil (nat_lit 486) (nat_lit 3271557262) .nil) (nat_lit 487) (nat_lit 3271557326) .nil)) (nat_lit 488) (nat_lit 3271557270) (.node (.node (.node .nil (nat_lit 489) (nat_lit 3271557334) .nil) (nat_lit 490) (nat_lit 3388997790) .nil) (nat_lit 491) (nat_lit 3388997854) (.node .nil (nat_lit 492) (nat_lit 3238003668) .nil))))) (nat_lit 493) (nat_lit 3238003670) (.node (.node (.node (.node (.node (.node .nil (nat_lit 494) (nat_lit 3271557998) .nil) (nat_lit 495) (nat_lit 3271558436) .nil) (nat_lit 496) (nat_lit 3271557332) (.node (.node .nil (nat_lit 497) (nat_lit 377487497) .nil) (nat_lit 498) (nat_lit 511705225) .nil)) (nat_lit 499) (nat_lit 511705289) (.node (.node (.node .nil (nat_lit 500) (nat_lit 3225419918) .nil) (nat_lit 501) (nat_lit 3225419982) .nil) (nat_lit 504) (nat_lit 3221225628) (.node (.node .nil (nat_lit 505) (nat_lit 3221225692) .nil) (nat_lit 506) (nat_lit 3225420170) .nil))) (nat_lit 507) (nat_lit 3225420234) (.node (.node (.node (.node .nil (nat_lit 508) (nat_lit 3225420172) .nil) (nat_lit 509) (nat_lit 3225420236) .nil) (nat_lit 510) (nat_lit 3225420208) (.node (.node .nil (nat_lit 511) (nat_lit 3225420272) .nil) (nat_lit 512) (nat_lit 3284140162) .nil)) (nat_lit 513) (nat_lit 3284140226) (.node (.node (.node .nil (nat_lit 514) (nat_lit 3292528770) .nil) (nat_lit 515) (nat_lit 3292528834) .nil) (nat_lit 516) (nat_lit 3284140170) (.node .nil (nat_lit 517) (nat_lit 3284140234) .nil)))) (nat_lit 518) (nat_lit 3292528778) (.node (.node (.node (.node (.node .nil (nat_lit 519) (nat_lit 3292528842) .nil) (nat_lit 520) (nat_lit 3284140178) .nil) (nat_lit 521) (nat_lit 3284140242) (.node (.node .nil (nat_lit 522) (nat_lit 3292528786) .nil) (nat_lit 523) (nat_lit 3292528850) .nil)) (nat_lit 524) (nat_lit 3284140190) (.node (.node (.node .nil (nat_lit 525) (nat_lit 3284140254) .nil) (nat_lit 526) (nat_lit 3292528798) .nil) (nat_lit 527) (nat_lit 3292528862) (.node .nil (nat_lit 528) (nat_lit 3284140196) .nil))) (nat_lit 529) (nat_lit 3284140260) (.node (.node (.node (.node .nil (nat_lit 530) (nat_lit 3292528804) .nil) (nat_lit 531) (nat_lit 3292528868) .nil) (nat_lit 532) (nat_lit 3284140202) (.node (.node .nil (nat_lit 533) (nat_lit 3284140266) .nil) (nat_lit 534) (nat_lit 3292528810) .nil)) (nat_lit 535) (nat_lit 3292528874) (.node (.node (.node .nil (nat_lit 536) (nat_lit 3380609190) .nil) (nat_lit 537) (nat_lit 3380609254) .nil) (nat_lit 538) (nat_lit 3380609192) (.node .nil (nat_lit 539) (nat_lit 3380609256) .nil)))))

def decT000011 : Tree :=
  .node (.node (.node (.node (.node (.node (.node .nil (nat_lit 543) (nat_lit 3271557328) .nil) (nat_lit 550) (nat_lit 3250585730) .nil) (nat_lit 551) (nat_lit 3250585794) (.node (.node .nil (nat_lit 552) (nat_lit 3384803466) .nil) (nat_lit 553) (nat_lit 3384803530) .nil)) (nat_lit 554) (nat_lit 3238003116) (.node (.node (.node .nil (nat_lit 555) (nat_lit 3238003180) .nil) (nat_lit 556) (nat_lit 3238003114) .nil) (nat_lit 557) (nat_lit 3238003178) (.node (.node .nil (nat_lit 558) (nat_lit 3250585758) .nil) (nat_lit 559) (nat_lit 3250585822) .nil))) (nat_lit 560) (nat_lit 3238003804) (.node (.node (.node (.node .nil (nat_lit 561) (nat_lit 3238003806) .nil) (nat_lit 562) (nat_lit 3238002866) .nil) (nat_lit 563) (nat_lit 3238002930) (.node (.node .nil (nat_lit 688) (nat_lit 209) .nil) (nat_lit 689) (nat_lit 1229) .nil)) (nat_lit 690) (nat_lit 213) (.node (.node (.node .nil (nat_lit 691) (nat_lit 229) .nil) (nat_lit 692) (nat_lit 1267) .nil) (nat_lit 693) (nat_lit 1271) (.node .nil (nat_lit 694) (nat_lit 1283) .nil)))) (nat_lit 695) (nat_lit 239) (.node (.node (.node (.node (.node .nil (nat_lit 696) (nat_lit 243) .nil) (nat_lit 728) (nat_lit 3246391361) .nil) (nat_lit 729) (nat_lit 3250585665) (.node (.node .nil (nat_lit 730) (nat_lit 3263168577) .nil) (nat_lit 731) (nat_lit 3388997697) .nil)) (nat_lit 732) (nat_lit 3233808449) (.node (.node (.node .nil (nat_lit 733) (nat_lit 3267362881) .nil) (nat_lit 736) (nat_lit 1223) .nil) (nat_lit 737) (nat_lit 217) (.node .nil (nat_lit 738) (nat_lit 231) .nil))) (nat_lit 739) (nat_lit 241) (.node (.node (.node (.node .nil (nat_lit 740) (nat_lit 1323) .nil) (nat_lit 832) (nat_lit 1536) .nil) (nat_lit 833) (nat_lit 1538) (.node (.node .nil (nat_lit 835) (nat_lit 1574) .nil) (nat_lit 836) (nat_lit 3225421328) .nil)) (nat_lit 884) (nat_lit 1394) (.node (.node (.node .nil (nat_lit 890) (nat_lit 3510632513) .nil) (nat_lit 894) (nat_lit 118) .nil) (nat_lit 900) (nat_lit 3225419841) (.node .nil (nat_lit 901) (nat_lit 3225420112) .nil))))) (nat_lit 902) (nat_lit 3225421602) (.node (.node (.node (.node (.node (.node .nil (nat_lit 903) (nat_lit 366) .nil) (nat_lit 904) (nat_lit 3225421610) .nil) (nat_lit 905) (nat_lit 3225421614) (.node (.node .nil (nat_lit 906) (nat_lit 3225421618) .nil) (nat_lit 908) (nat_lit 3225421630) .nil)) (nat_lit 910) (nat_lit 3225421642) (.node (.node (.node .nil (nat_lit 911) (nat_lit 3225421650) .nil) (nat_lit 912) (nat_lit 3225421716) .nil) (nat_lit 938) (nat_lit 3254781746) (.node .nil (nat_lit 939) (nat_lit 3254781770) .nil))) (nat_lit 940) (nat_lit 3225421666) (.node (.node (.node (.node .nil (nat_lit 941) (nat_lit 3225421674) .nil) (nat_lit 942) (nat_lit 3225421678) .nil) (nat_lit 943) (nat_lit 3225421682) (.node (.node .nil (nat_lit 944) (nat_lit 3225421718) .nil) (nat_lit 970) (nat_lit 3254781810) .nil)) (nat_lit 971) (nat_lit 3254781834) (.node (.node (.node .nil (nat_lit 972) (nat_lit 3225421694) .nil) (nat_lit 973) (nat_lit 3225421706) .nil) (nat_lit 974) (nat_lit 3225421714) (.node .nil (nat_lit 976) (nat_lit 1893) .nil)))) (nat_lit 977) (nat_lit 1905) (.node (.node (.node (.node (.node .nil (nat_lit 978) (nat_lit 1867) .nil) (nat_lit 979) (nat_lit 3225421732) .nil) (nat_lit 980) (nat_lit 3254781860) (.node (.node .nil (nat_lit 981) (nat_lit 1933) .nil) (nat_lit 982) (nat_lit 1921) .nil)) (nat_lit 1008) (nat_lit 1909) (.node (.node (.node .nil (nat_lit 1009) (nat_lit 1923) .nil) (nat_lit 1010) (nat_lit 1925) .nil) (nat_lit 1012) (nat_lit 1841) (.node .nil (nat_lit 1013) (nat_lit 1899) .nil))) (nat_lit 1017) (nat_lit 1863) (.node (.node (.node (.node .nil (nat_lit 1024) (nat_lit 3221227562) .nil) (nat_lit 1025) (nat_lit 3254781994) .nil) (nat_lit 1027) (nat_lit 3225421862) (.node (.node .nil (nat_lit 1031) (nat_lit 3254781964) .nil) (nat_lit 1036) (nat_lit 3225421876) .nil)) (nat_lit 1037) (nat_lit 3221227568) (.node (.node (.node .nil (nat_lit 1038) (nat_lit 3246393414) .nil) (nat_lit 1049) (nat_lit 3246393392) .nil) (nat_lit 1081) (nat_lit 3246393456) (.node .nil (nat_lit 1104) (nat_lit 3221227626) .nil)))))

def decT000100 : Tree :=
  .node (.node (.node (.node (.node (.node (.node .nil (nat_lit 1107) (nat_lit 3225421926) .nil) (nat_lit 1111) (nat_lit 3254782124) .nil) (nat_lit 1116) (nat_lit 3225421940) (.node (.node .nil (nat_lit 1117) (nat_lit 3221227632) .nil) (nat_lit 1118) (nat_lit 3246393478) .nil)) (nat_lit 1142) (nat_lit 3284142312) (.node (.node (.node .nil (nat_lit 1143) (nat_lit 3284142314) .nil) (nat_lit 1217) (nat_lit 3246393388) .nil) (nat_lit 1218) (nat_lit 3246393452) (.node (.node .nil (nat_lit 1232) (nat_lit 3246393376) .nil) (nat_lit 1233) (nat_lit 3246393440) .nil))) (nat_lit 1234) (nat_lit 3254781984) (.node (.node (.node (.node .nil (nat_lit 1235) (nat_lit 3254782048) .nil) (nat_lit 1238) (nat_lit 3246393386) .nil) (nat_lit 1239) (nat_lit 3246393450) (.node (.node .nil (nat_lit 1242) (nat_lit 3254782384) .nil) (nat_lit 1243) (nat_lit 3254782386) .nil)) (nat_lit 1244) (nat_lit 3254781996) (.node (.node (.node .nil (nat_lit 1245) (nat_lit 3254782060) .nil) (nat_lit 1246) (nat_lit 3254781998) .nil) (nat_lit 1247) (nat_lit 3254782062) (.node .nil (nat_lit 1250) (nat_lit 3238004784) .nil)))) (nat_lit 1251) (nat_lit 3238004848) (.node (.node (.node (.node (.node .nil (nat_lit 1252) (nat_lit 3254782000) .nil) (nat_lit 1253) (nat_lit 3254782064) .nil) (nat_lit 1254) (nat_lit 3254782012) (.node (.node .nil (nat_lit 1255) (nat_lit 3254782076) .nil) (nat_lit 1258) (nat_lit 3254782416) .nil)) (nat_lit 1259) (nat_lit 3254782418) (.node (.node (.node .nil (nat_lit 1260) (nat_lit 3254782042) .nil) (nat_lit 1261) (nat_lit 3254782106) .nil) (nat_lit 1262) (nat_lit 3238004806) (.node .nil (nat_lit 1263) (nat_lit 3238004870) .nil))) (nat_lit 1264) (nat_lit 3254782022) (.node (.node (.node (.node .nil (nat_lit 1265) (nat_lit 3254782086) .nil) (nat_lit 1266) (nat_lit 3267364934) .nil) (nat_lit 1267) (nat_lit 3267364998) (.node (.node .nil (nat_lit 1268) (nat_lit 3254782030) .nil) (nat_lit 1269) (nat_lit 3254782094) .nil)) (nat_lit 1272) (nat_lit 3254782038) (.node (.node (.node .nil (nat_lit 1273) (nat_lit 3254782102) .nil) (nat_lit 1415) (nat_lit 5913971403) .nil) (nat_lit 1570) (nat_lit 6790581326) (.node .nil (nat_lit 1571) (nat_lit 6794775630) .nil))))) (nat_lit 1572) (nat_lit 6794775696) (.node (.node (.node (.node (.node (.node .nil (nat_lit 1573) (nat_lit 6798969934) .nil) (nat_lit 1574) (nat_lit 6794775700) .nil) (nat_lit 1653) (nat_lit 6928993359) (.node (.node .nil (nat_lit 1654) (nat_lit 6928993425) .nil) (nat_lit 1655) (nat_lit 6928993679) .nil)) (nat_lit 1656) (nat_lit 6928993429) (.node (.node (.node .nil (nat_lit 1728) (nat_lit 6794775978) .nil) (nat_lit 1730) (nat_lit 6794775938) .nil) (nat_lit 1747) (nat_lit 6794775972) (.node (.node .nil (nat_lit 2345) (nat_lit 9915339344) .nil) (nat_lit 2353) (nat_lit 9915339360) .nil))) (nat_lit 2356) (nat_lit 9915339366) (.node (.node (.node (.node .nil (nat_lit 2392) (nat_lit 9915339306) .nil) (nat_lit 2393) (nat_lit 9915339308) .nil) (nat_lit 2394) (nat_lit 9915339310) (.node (.node .nil (nat_lit 2395) (nat_lit 9915339320) .nil) (nat_lit 2396) (nat_lit 9915339330) .nil)) (nat_lit 2397) (nat_lit 9915339332) (.node (.node (.node .nil (nat_lit 2398) (nat_lit 9915339350) .nil) (nat_lit 2399) (nat_lit 9915339358) .nil) (nat_lit 2507) (nat_lit 10460599182) (.node .nil (nat_lit 2508) (nat_lit 10565456782) .nil)))) (nat_lit 2524) (nat_lit 10452210498) (.node (.node (.node (.node (.node .nil (nat_lit 2525) (nat_lit 10452210500) .nil) (nat_lit 2527) (nat_lit 10452210526) .nil) (nat_lit 2611) (nat_lit 10989081700) (.node (.node .nil (nat_lit 2614) (nat_lit 10989081712) .nil) (nat_lit 2649) (nat_lit 10989081644) .nil)) (nat_lit 2650) (nat_lit 10989081646) (.node (.node (.node .nil (nat_lit 2651) (nat_lit 10989081656) .nil) (nat_lit 2654) (nat_lit 10989081686) .nil) (nat_lit 2888) (nat_lit 12171875982) (.node .nil (nat_lit 2891) (nat_lit 12071212686) .nil))) (nat_lit 2892) (nat_lit 12176070286) (.node (.node (.node (.node .nil (nat_lit 2908) (nat_lit 12062824002) .nil) (nat_lit 2909) (nat_lit 12062824004) .nil) (nat_lit 2964) (nat_lit 12712941348) (.node (.node .nil (nat_lit 3018) (nat_lit 12608083852) .nil) (nat_lit 3019) (nat_lit 12608083854) .nil)) (nat_lit 3020) (nat_lit 12712941452) (.node (.node (.node .nil (nat_lit 3144) (nat_lit 13245618316) .nil) (nat_lit 3264) (nat_lit 13778295166) .nil) (nat_lit 3271) (nat_lit 13778295180) (.node .nil (nat_lit 3272) (nat_lit 13782489484) .nil)))))

def decT000101 : Tree :=
  .node (.node (.node (.node (.node (.node (.node .nil (nat_lit 3275) (nat_lit 13778295188) .nil) (nat_lit 3402) (nat_lit 14218697356) .nil) (nat_lit 3403) (nat_lit 14218697358) (.node (.node .nil (nat_lit 3404) (nat_lit 14323554956) .nil) (nat_lit 3546) (nat_lit 14805900210) .nil)) (nat_lit 3548) (nat_lit 14826871730) (.node (.node (.node .nil (nat_lit 3549) (nat_lit 14805900216) .nil) (nat_lit 3550) (nat_lit 14893980594) .nil) (nat_lit 3635) (nat_lit 15242108059) (.node (.node .nil (nat_lit 3763) (nat_lit 15778979227) .nil) (nat_lit 3804) (nat_lit 15674121559) .nil))) (nat_lit 3805) (nat_lit 15707675991) (.node (.node (.node (.node .nil (nat_lit 3852) (nat_lit 7703) .nil) (nat_lit 3907) (nat_lit 16873692804) .nil) (nat_lit 3917) (nat_lit 16873692824) (.node (.node .nil (nat_lit 3922) (nat_lit 16873692834) .nil) (nat_lit 3927) (nat_lit 16873692844) .nil)) (nat_lit 3932) (nat_lit 16873692854) (.node (.node (.node .nil (nat_lit 3945) (nat_lit 16865304192) .nil) (nat_lit 3955) (nat_lit 16584285922) .nil) (nat_lit 3957) (nat_lit 16592674530) (.node .nil (nat_lit 3958) (nat_lit 16643006308) .nil)))) (nat_lit 3959) (nat_lit 16647200613) (.node (.node (.node (.node (.node .nil (nat_lit 3960) (nat_lit 16643006310) .nil) (nat_lit 3961) (nat_lit 16647200615) .nil) (nat_lit 3969) (nat_lit 16643006178) (.node (.node .nil (nat_lit 3987) (nat_lit 16873692964) .nil) (nat_lit 3997) (nat_lit 16873692984) .nil)) (nat_lit 4002) (nat_lit 16873692994) (.node (.node (.node .nil (nat_lit 4007) (nat_lit 16873693004) .nil) (nat_lit 4012) (nat_lit 16873693014) .nil) (nat_lit 4025) (nat_lit 16865304352) (.node .nil (nat_lit 4134) (nat_lit 17372815434) .nil))) (nat_lit 4348) (nat_lit 8633) (.node (.node (.node (.node .nil (nat_lit 6918) (nat_lit 29213341194) .nil) (nat_lit 6920) (nat_lit 29213341198) .nil) (nat_lit 6922) (nat_lit 29213341202) (.node (.node .nil (nat_lit 6924) (nat_lit 29213341206) .nil) (nat_lit 6926) (nat_lit 29213341210) .nil)) (nat_lit 6930) (nat_lit 29213341218) (.node (.node (.node .nil (nat_lit 6971) (nat_lit 29213341300) .nil) (nat_lit 6973) (nat_lit 29213341304) .nil) (nat_lit 6976) (nat_lit 29213341308) (.node .nil (nat_lit 6977) (nat_lit 29213341310) .nil))))) (nat_lit 6979) (nat_lit 29213341316) (.node (.node (.node (.node (.node (.node .nil (nat_lit 7468) (nat_lit 131) .nil) (nat_lit 7469) (nat_lit 397) .nil) (nat_lit 7470) (nat_lit 133) (.node (.node .nil (nat_lit 7472) (nat_lit 137) .nil) (nat_lit 7473) (nat_lit 139) .nil)) (nat_lit 7474) (nat_lit 797) (.node (.node (.node .nil (nat_lit 7475) (nat_lit 143) .nil) (nat_lit 7476) (nat_lit 145) .nil) (nat_lit 7477) (nat_lit 147) (.node .nil (nat_lit 7478) (nat_lit 149) .nil))) (nat_lit 7479) (nat_lit 151) (.node (.node (.node (.node .nil (nat_lit 7480) (nat_lit 153) .nil) (nat_lit 7481) (nat_lit 155) .nil) (nat_lit 7482) (nat_lit 157) (.node (.node .nil (nat_lit 7484) (nat_lit 159) .nil) (nat_lit 7485) (nat_lit 1093) .nil)) (nat_lit 7486) (nat_lit 161) (.node (.node (.node .nil (nat_lit 7487) (nat_lit 165) .nil) (nat_lit 7488) (nat_lit 169) .nil) (nat_lit 7489) (nat_lit 171) (.node .nil (nat_lit 7490) (nat_lit 175) .nil)))) (nat_lit 7491) (nat_lit 195) (.node (.node (.node (.node (.node .nil (nat_lit 7492) (nat_lit 1185) .nil) (nat_lit 7493) (nat_lit 1187) .nil) (nat_lit 7494) (nat_lit 14853) (.node (.node .nil (nat_lit 7495) (nat_lit 197) .nil) (nat_lit 7496) (nat_lit 201) .nil)) (nat_lit 7497) (nat_lit 203) (.node (.node (.node .nil (nat_lit 7498) (nat_lit 1203) .nil) (nat_lit 7499) (nat_lit 1207) .nil) (nat_lit 7500) (nat_lit 1209) (.node .nil (nat_lit 7501) (nat_lit 207) .nil))) (nat_lit 7503) (nat_lit 215) (.node (.node (.node (.node .nil (nat_lit 7504) (nat_lit 219) .nil) (nat_lit 7505) (nat_lit 663) .nil) (nat_lit 7506) (nat_lit 223) (.node (.node .nil (nat_lit 7507) (nat_lit 1193) .nil) (nat_lit 7508) (nat_lit 14893) .nil)) (nat_lit 7509) (nat_lit 14895) (.node (.node (.node .nil (nat_lit 7510) (nat_lit 225) .nil) (nat_lit 7511) (nat_lit 233) .nil) (nat_lit 7512) (nat_lit 235) (.node .nil (nat_lit 7513) (nat_lit 14907) .nil)))))

def decT000110 : Tree :=
  .node (.node (.node (.node (.node (.node (.node .nil (nat_lit 7515) (nat_lit 237) .nil) (nat_lit 7516) (nat_lit 14923) .nil) (nat_lit 7517) (nat_lit 1893) (.node (.node .nil (nat_lit 7518) (nat_lit 1895) .nil) (nat_lit 7519) (nat_lit 1897) .nil)) (nat_lit 7520) (nat_lit 1933) (.node (.node (.node .nil (nat_lit 7521) (nat_lit 1935) .nil) (nat_lit 7522) (nat_lit 211) .nil) (nat_lit 7523) (nat_lit 229) (.node (.node .nil (nat_lit 7524) (nat_lit 235) .nil) (nat_lit 7525) (nat_lit 237) .nil))) (nat_lit 7526) (nat_lit 1893) (.node (.node (.node (.node .nil (nat_lit 7527) (nat_lit 1895) .nil) (nat_lit 7528) (nat_lit 1923) .nil) (nat_lit 7529) (nat_lit 1933) (.node (.node .nil (nat_lit 7530) (nat_lit 1935) .nil) (nat_lit 7544) (nat_lit 2171) .nil)) (nat_lit 7579) (nat_lit 1189) (.node (.node (.node .nil (nat_lit 7580) (nat_lit 199) .nil) (nat_lit 7581) (nat_lit 1195) .nil) (nat_lit 7582) (nat_lit 481) (.node .nil (nat_lit 7583) (nat_lit 1209) .nil)))) (nat_lit 7584) (nat_lit 205) (.node (.node (.node (.node (.node .nil (nat_lit 7585) (nat_lit 1215) .nil) (nat_lit 7586) (nat_lit 1219) .nil) (nat_lit 7587) (nat_lit 1227) (.node (.node .nil (nat_lit 7588) (nat_lit 1233) .nil) (nat_lit 7589) (nat_lit 1235) .nil)) (nat_lit 7590) (nat_lit 1237) (.node (.node (.node .nil (nat_lit 7591) (nat_lit 15095) .nil) (nat_lit 7592) (nat_lit 1339) .nil) (nat_lit 7593) (nat_lit 1243) (.node .nil (nat_lit 7594) (nat_lit 15115) .nil))) (nat_lit 7595) (nat_lit 1343) (.node (.node (.node (.node .nil (nat_lit 7596) (nat_lit 1251) .nil) (nat_lit 7597) (nat_lit 1249) .nil) (nat_lit 7598) (nat_lit 1253) (.node (.node .nil (nat_lit 7599) (nat_lit 1255) .nil) (nat_lit 7600) (nat_lit 1257) .nil)) (nat_lit 7601) (nat_lit 1259) (.node (.node (.node .nil (nat_lit 7602) (nat_lit 1265) .nil) (nat_lit 7603) (nat_lit 1285) .nil) (nat_lit 7604) (nat_lit 1287) (.node .nil (nat_lit 7605) (nat_lit 855) .nil))))) (nat_lit 7606) (nat_lit 1299) (.node (.node (.node (.node (.node (.node .nil (nat_lit 7607) (nat_lit 1301) .nil) (nat_lit 7608) (nat_lit 14905) .nil) (nat_lit 7609) (nat_lit 1303) (.node (.node .nil (nat_lit 7610) (nat_lit 1305) .nil) (nat_lit 7611) (nat_lit 245) .nil)) (nat_lit 7612) (nat_lit 1313) (.node (.node (.node .nil (nat_lit 7613) (nat_lit 1315) .nil) (nat_lit 7614) (nat_lit 1317) .nil) (nat_lit 7615) (nat_lit 1905) (.node (.node .nil (nat_lit 7680) (nat_lit 3376414850) .nil) (nat_lit 7681) (nat_lit 3376414914) .nil))) (nat_lit 7682) (nat_lit 3250585732) (.node (.node (.node (.node .nil (nat_lit 7683) (nat_lit 3250585796) .nil) (nat_lit 7684) (nat_lit 3368026244) .nil) (nat_lit 7685) (nat_lit 3368026308) (.node (.node .nil (nat_lit 7686) (nat_lit 3426746500) .nil) (nat_lit 7687) (nat_lit 3426746564) .nil)) (nat_lit 7688) (nat_lit 3225420174) (.node (.node (.node .nil (nat_lit 7689) (nat_lit 3225420238) .nil) (nat_lit 7690) (nat_lit 3250585736) .nil) (nat_lit 7691) (nat_lit 3250585800) (.node .nil (nat_lit 7692) (nat_lit 3368026248) .nil)))) (nat_lit 7693) (nat_lit 3368026312) (.node (.node (.node (.node (.node .nil (nat_lit 7694) (nat_lit 3426746504) .nil) (nat_lit 7695) (nat_lit 3426746568) .nil) (nat_lit 7696) (nat_lit 3384803464) (.node (.node .nil (nat_lit 7697) (nat_lit 3384803528) .nil) (nat_lit 7698) (nat_lit 3409969288) .nil)) (nat_lit 7699) (nat_lit 3409969352) (.node (.node (.node .nil (nat_lit 7700) (nat_lit 3221226020) .nil) (nat_lit 7701) (nat_lit 3221226022) .nil) (nat_lit 7702) (nat_lit 3225420324) (.node .nil (nat_lit 7703) (nat_lit 3225420326) .nil))) (nat_lit 7704) (nat_lit 3409969290) (.node (.node (.node (.node .nil (nat_lit 7705) (nat_lit 3409969354) .nil) (nat_lit 7706) (nat_lit 3422552202) .nil) (nat_lit 7707) (nat_lit 3422552266) (.node (.node .nil (nat_lit 7708) (nat_lit 3246392400) .nil) (nat_lit 7709) (nat_lit 3246392402) .nil)) (nat_lit 7710) (nat_lit 3250585740) (.node (.node (.node .nil (nat_lit 7711) (nat_lit 3250585804) .nil) (nat_lit 7712) (nat_lit 3238002830) .nil) (nat_lit 7713) (nat_lit 3238002894) (.node .nil (nat_lit 7714) (nat_lit 3250585744) .nil)))))

def decT000111 : Tree :=
  .node (.node (.node (.node (.node (.node (.node .nil (nat_lit 7716) (nat_lit 3368026256) .nil) (nat_lit 7717) (nat_lit 3368026320) .nil) (nat_lit 7718) (nat_lit 3254780048) (.node (.node .nil (nat_lit 7719) (nat_lit 3254780112) .nil) (nat_lit 7720) (nat_lit 3384803472) .nil)) (nat_lit 7721) (nat_lit 3384803536) (.node (.node (.node .nil (nat_lit 7722) (nat_lit 3414163600) .nil) (nat_lit 7723) (nat_lit 3414163664) .nil) (nat_lit 7724) (nat_lit 3422552210) (.node (.node .nil (nat_lit 7725) (nat_lit 3422552274) .nil) (nat_lit 7726) (nat_lit 3225420190) .nil))) (nat_lit 7727) (nat_lit 3225420254) (.node (.node (.node (.node .nil (nat_lit 7728) (nat_lit 3225419926) .nil) (nat_lit 7729) (nat_lit 3225419990) .nil) (nat_lit 7730) (nat_lit 3368026262) (.node (.node .nil (nat_lit 7731) (nat_lit 3368026326) .nil) (nat_lit 7732) (nat_lit 3426746518) .nil)) (nat_lit 7733) (nat_lit 3426746582) (.node (.node (.node .nil (nat_lit 7734) (nat_lit 3368026264) .nil) (nat_lit 7735) (nat_lit 3368026328) .nil) (nat_lit 7736) (nat_lit 3238018156) (.node .nil (nat_lit 7737) (nat_lit 3238018158) .nil)))) (nat_lit 7738) (nat_lit 3426746520) (.node (.node (.node (.node (.node .nil (nat_lit 7739) (nat_lit 3426746584) .nil) (nat_lit 7740) (nat_lit 3409969304) .nil) (nat_lit 7741) (nat_lit 3409969368) (.node (.node .nil (nat_lit 7742) (nat_lit 3225419930) .nil) (nat_lit 7743) (nat_lit 3225419994) .nil)) (nat_lit 7744) (nat_lit 3250585754) (.node (.node (.node .nil (nat_lit 7745) (nat_lit 3250585818) .nil) (nat_lit 7746) (nat_lit 3368026266) .nil) (nat_lit 7747) (nat_lit 3368026330) (.node .nil (nat_lit 7748) (nat_lit 3250585756) .nil))) (nat_lit 7749) (nat_lit 3250585820) (.node (.node (.node (.node .nil (nat_lit 7750) (nat_lit 3368026268) .nil) (nat_lit 7751) (nat_lit 3368026332) .nil) (nat_lit 7752) (nat_lit 3426746524) (.node (.node .nil (nat_lit 7753) (nat_lit 3426746588) .nil) (nat_lit 7754) (nat_lit 3409969308) .nil)) (nat_lit 7755) (nat_lit 3409969372) (.node (.node (.node .nil (nat_lit 7756) (nat_lit 3225420202) .nil) (nat_lit 7757) (nat_lit 3225420266) .nil) (nat_lit 7758) (nat_lit 3254780330) (.node .nil (nat_lit 7759) (nat_lit 3254780394) .nil))))) (nat_lit 7760) (nat_lit 3221226136) (.node (.node (.node (.node (.node (.node .nil (nat_lit 7761) (nat_lit 3221226138) .nil) (nat_lit 7762) (nat_lit 3225420440) .nil) (nat_lit 7763) (nat_lit 3225420442) (.node (.node .nil (nat_lit 7764) (nat_lit 3225419936) .nil) (nat_lit 7765) (nat_lit 3225420000) .nil)) (nat_lit 7766) (nat_lit 3250585760) (.node (.node (.node .nil (nat_lit 7767) (nat_lit 3250585824) .nil) (nat_lit 7768) (nat_lit 3250585764) .nil) (nat_lit 7769) (nat_lit 3250585828) (.node .nil (nat_lit 7770) (nat_lit 3368026276) .nil))) (nat_lit 7771) (nat_lit 3368026340) (.node (.node (.node (.node .nil (nat_lit 7772) (nat_lit 3238018228) .nil) (nat_lit 7773) (nat_lit 3238018230) .nil) (nat_lit 7774) (nat_lit 3426746532) (.node (.node .nil (nat_lit 7775) (nat_lit 3426746596) .nil) (nat_lit 7776) (nat_lit 3250585766) .nil)) (nat_lit 7777) (nat_lit 3250585830) (.node (.node (.node .nil (nat_lit 7778) (nat_lit 3368026278) .nil) (nat_lit 7779) (nat_lit 3368026342) .nil) (nat_lit 7780) (nat_lit 3250586292) (.node .nil (nat_lit 7781) (nat_lit 3250586294) .nil)))) (nat_lit 7782) (nat_lit 3250586304) (.node (.node (.node (.node (.node .nil (nat_lit 7783) (nat_lit 3250586306) .nil) (nat_lit 7784) (nat_lit 3250601156) .nil) (nat_lit 7785) (nat_lit 3250601158) (.node (.node .nil (nat_lit 7786) (nat_lit 3250585768) .nil) (nat_lit 7787) (nat_lit 3250585832) .nil)) (nat_lit 7788) (nat_lit 3368026280) (.node (.node (.node .nil (nat_lit 7789) (nat_lit 3368026344) .nil) (nat_lit 7790) (nat_lit 3426746536) .nil) (nat_lit 7791) (nat_lit 3426746600) (.node .nil (nat_lit 7792) (nat_lit 3409969320) .nil))) (nat_lit 7793) (nat_lit 3409969384) (.node (.node (.node (.node .nil (nat_lit 7794) (nat_lit 3372220586) .nil) (nat_lit 7795) (nat_lit 3372220650) .nil) (nat_lit 7796) (nat_lit 3422552234) (.node (.node .nil (nat_lit 7797) (nat_lit 3422552298) .nil) (nat_lit 7798) (nat_lit 3409969322) .nil)) (nat_lit 7799) (nat_lit 3409969386) (.node (.node (.node .nil (nat_lit 7800) (nat_lit 3225420496) .nil) (nat_lit 7801) (nat_lit 3225420498) .nil) (nat_lit 7802) (nat_lit 3254780628) (.node .nil (nat_lit 7803) (nat_lit 3254780630) .nil)))))

def decT001000 : Tree :=
  .node (.node (.node (.node (.node (.node (.node .nil (nat_lit 7805) (nat_lit 3233808620) .nil) (nat_lit 7806) (nat_lit 3368026284) .nil) (nat_lit 7807) (nat_lit 3368026348) (.node (.node .nil (nat_lit 7808) (nat_lit 3221225646) .nil) (nat_lit 7809) (nat_lit 3221225710) .nil)) (nat_lit 7810) (nat_lit 3225419950) (.node (.node (.node .nil (nat_lit 7811) (nat_lit 3225420014) .nil) (nat_lit 7812) (nat_lit 3254780078) .nil) (nat_lit 7813) (nat_lit 3254780142) (.node (.node .nil (nat_lit 7814) (nat_lit 3250585774) .nil) (nat_lit 7815) (nat_lit 3250585838) .nil))) (nat_lit 7816) (nat_lit 3368026286) (.node (.node (.node (.node .nil (nat_lit 7817) (nat_lit 3368026350) .nil) (nat_lit 7818) (nat_lit 3250585776) .nil) (nat_lit 7819) (nat_lit 3250585840) (.node (.node .nil (nat_lit 7820) (nat_lit 3254780080) .nil) (nat_lit 7821) (nat_lit 3254780144) .nil)) (nat_lit 7822) (nat_lit 3250585778) (.node (.node (.node .nil (nat_lit 7823) (nat_lit 3250585842) .nil) (nat_lit 7824) (nat_lit 3229614260) .nil) (nat_lit 7825) (nat_lit 3229614324) (.node .nil (nat_lit 7826) (nat_lit 3368026292) .nil)))) (nat_lit 7827) (nat_lit 3368026356) (.node (.node (.node (.node (.node .nil (nat_lit 7828) (nat_lit 3426746548) .nil) (nat_lit 7829) (nat_lit 3426746612) .nil) (nat_lit 7830) (nat_lit 3426746576) (.node (.node .nil (nat_lit 7831) (nat_lit 3254780136) .nil) (nat_lit 7832) (nat_lit 3263168750) .nil)) (nat_lit 7833) (nat_lit 3263168754) (.node (.node (.node .nil (nat_lit 7834) (nat_lit 2944401603) .nil) (nat_lit 7835) (nat_lit 3250586366) .nil) (nat_lit 7840) (nat_lit 3368026242) (.node .nil (nat_lit 7841) (nat_lit 3368026306) .nil))) (nat_lit 7842) (nat_lit 3258974338) (.node (.node (.node (.node .nil (nat_lit 7843) (nat_lit 3258974402) .nil) (nat_lit 7844) (nat_lit 3225420164) .nil) (nat_lit 7845) (nat_lit 3225420228) (.node (.node .nil (nat_lit 7846) (nat_lit 3221225860) .nil) (nat_lit 7847) (nat_lit 3221225924) .nil)) (nat_lit 7848) (nat_lit 3258974596) (.node (.node (.node .nil (nat_lit 7849) (nat_lit 3258974660) .nil) (nat_lit 7850) (nat_lit 3233808772) .nil) (nat_lit 7851) (nat_lit 3233808836) (.node .nil (nat_lit 7852) (nat_lit 3229629760) .nil))))) (nat_lit 7853) (nat_lit 3229629762) (.node (.node (.node (.node (.node (.node .nil (nat_lit 7854) (nat_lit 3225420292) .nil) (nat_lit 7855) (nat_lit 3225420294) .nil) (nat_lit 7856) (nat_lit 3221225988) (.node (.node .nil (nat_lit 7857) (nat_lit 3221225990) .nil) (nat_lit 7858) (nat_lit 3258974724) .nil)) (nat_lit 7859) (nat_lit 3258974726) (.node (.node (.node .nil (nat_lit 7860) (nat_lit 3233808900) .nil) (nat_lit 7861) (nat_lit 3233808902) .nil) (nat_lit 7862) (nat_lit 3246406976) (.node (.node .nil (nat_lit 7863) (nat_lit 3246406978) .nil) (nat_lit 7864) (nat_lit 3368026250) .nil))) (nat_lit 7865) (nat_lit 3368026314) (.node (.node (.node (.node .nil (nat_lit 7866) (nat_lit 3258974346) .nil) (nat_lit 7867) (nat_lit 3258974410) .nil) (nat_lit 7868) (nat_lit 3233808522) (.node (.node .nil (nat_lit 7869) (nat_lit 3233808586) .nil) (nat_lit 7870) (nat_lit 3225420180) .nil)) (nat_lit 7871) (nat_lit 3225420244) (.node (.node (.node .nil (nat_lit 7872) (nat_lit 3221225876) .nil) (nat_lit 7873) (nat_lit 3221225940) .nil) (nat_lit 7874) (nat_lit 3258974612) (.node .nil (nat_lit 7875) (nat_lit 3258974676) .nil)))) (nat_lit 7876) (nat_lit 3233808788) (.node (.node (.node (.node (.node .nil (nat_lit 7877) (nat_lit 3233808852) .nil) (nat_lit 7878) (nat_lit 3229629808) .nil) (nat_lit 7879) (nat_lit 3229629810) (.node (.node .nil (nat_lit 7880) (nat_lit 3258974354) .nil) (nat_lit 7881) (nat_lit 3258974418) .nil)) (nat_lit 7882) (nat_lit 3368026258) (.node (.node (.node .nil (nat_lit 7883) (nat_lit 3368026322) .nil) (nat_lit 7884) (nat_lit 3368026270) .nil) (nat_lit 7885) (nat_lit 3368026334) (.node .nil (nat_lit 7886) (nat_lit 3258974366) .nil))) (nat_lit 7887) (nat_lit 3258974430) (.node (.node (.node (.node .nil (nat_lit 7888) (nat_lit 3225420200) .nil) (nat_lit 7889) (nat_lit 3225420264) .nil) (nat_lit 7890) (nat_lit 3221225896) (.node (.node .nil (nat_lit 7891) (nat_lit 3221225960) .nil) (nat_lit 7892) (nat_lit 3258974632) .nil)) (nat_lit 7893) (nat_lit 3258974696) (.node (.node (.node .nil (nat_lit 7894) (nat_lit 3233808808) .nil) (nat_lit 7895) (nat_lit 3233808872) .nil) (nat_lit 7896) (nat_lit 3229629848) (.node .nil (nat_lit 7897) (nat_lit 3229629850) .nil)))))

def decT001001 : Tree :=
  .node (.node (.node (.node (.node (.node (.node .nil (nat_lit 7899) (nat_lit 3225420610) .nil) (nat_lit 7900) (nat_lit 3221226304) .nil) (nat_lit 7901) (nat_lit 3221226306) (.node (.node .nil (nat_lit 7902) (nat_lit 3258975040) .nil) (nat_lit 7903) (nat_lit 3258975042) .nil)) (nat_lit 7904) (nat_lit 3233809216) (.node (.node (.node .nil (nat_lit 7905) (nat_lit 3233809218) .nil) (nat_lit 7906) (nat_lit 3368026944) .nil) (nat_lit 7907) (nat_lit 3368026946) (.node (.node .nil (nat_lit 7908) (nat_lit 3368026282) .nil) (nat_lit 7909) (nat_lit 3368026346) .nil))) (nat_lit 7910) (nat_lit 3258974378) (.node (.node (.node (.node .nil (nat_lit 7911) (nat_lit 3258974442) .nil) (nat_lit 7912) (nat_lit 3225420638) .nil) (nat_lit 7913) (nat_lit 3225420640) (.node (.node .nil (nat_lit 7914) (nat_lit 3221226334) .nil) (nat_lit 7915) (nat_lit 3221226336) .nil)) (nat_lit 7916) (nat_lit 3258975070) (.node (.node (.node .nil (nat_lit 7917) (nat_lit 3258975072) .nil) (nat_lit 7918) (nat_lit 3233809246) .nil) (nat_lit 7919) (nat_lit 3233809248) (.node .nil (nat_lit 7920) (nat_lit 3368026974) .nil)))) (nat_lit 7921) (nat_lit 3368026976) (.node (.node (.node (.node (.node .nil (nat_lit 7922) (nat_lit 3221225650) .nil) (nat_lit 7923) (nat_lit 3221225714) .nil) (nat_lit 7924) (nat_lit 3368026290) (.node (.node .nil (nat_lit 7925) (nat_lit 3368026354) .nil) (nat_lit 7926) (nat_lit 3258974386) .nil)) (nat_lit 7927) (nat_lit 3258974450) (.node (.node (.node .nil (nat_lit 7928) (nat_lit 3233808562) .nil) (nat_lit 7929) (nat_lit 3233808626) .nil) (nat_lit 7936) (nat_lit 3300919138) (.node .nil (nat_lit 7937) (nat_lit 3305113442) .nil))) (nat_lit 7938) (nat_lit 3221241344) (.node (.node (.node (.node .nil (nat_lit 7939) (nat_lit 3221241346) .nil) (nat_lit 7940) (nat_lit 3225435648) .nil) (nat_lit 7941) (nat_lit 3225435650) (.node (.node .nil (nat_lit 7942) (nat_lit 3498065408) .nil) (nat_lit 7943) (nat_lit 3498065410) .nil)) (nat_lit 7944) (nat_lit 3300919074) (.node (.node (.node .nil (nat_lit 7945) (nat_lit 3305113378) .nil) (nat_lit 7946) (nat_lit 3221241360) .nil) (nat_lit 7947) (nat_lit 3221241362) (.node .nil (nat_lit 7948) (nat_lit 3225435664) .nil))))) (nat_lit 7949) (nat_lit 3225435666) (.node (.node (.node (.node (.node (.node .nil (nat_lit 7950) (nat_lit 3498065424) .nil) (nat_lit 7951) (nat_lit 3498065426) .nil) (nat_lit 7952) (nat_lit 3300919146) (.node (.node .nil (nat_lit 7953) (nat_lit 3305113450) .nil) (nat_lit 7954) (nat_lit 3221241376) .nil)) (nat_lit 7955) (nat_lit 3221241378) (.node (.node (.node .nil (nat_lit 7956) (nat_lit 3225435680) .nil) (nat_lit 7957) (nat_lit 3225435682) .nil) (nat_lit 7960) (nat_lit 3300919082) (.node .nil (nat_lit 7961) (nat_lit 3305113386) .nil))) (nat_lit 7962) (nat_lit 3221241392) (.node (.node (.node (.node .nil (nat_lit 7963) (nat_lit 3221241394) .nil) (nat_lit 7964) (nat_lit 3225435696) .nil) (nat_lit 7965) (nat_lit 3225435698) (.node (.node .nil (nat_lit 7968) (nat_lit 3300919150) .nil) (nat_lit 7969) (nat_lit 3305113454) .nil)) (nat_lit 7970) (nat_lit 3221241408) (.node (.node (.node .nil (nat_lit 7971) (nat_lit 3221241410) .nil) (nat_lit 7972) (nat_lit 3225435712) .nil) (nat_lit 7973) (nat_lit 3225435714) (.node .nil (nat_lit 7974) (nat_lit 3498065472) .nil)))) (nat_lit 7975) (nat_lit 3498065474) (.node (.node (.node (.node (.node .nil (nat_lit 7976) (nat_lit 3300919086) .nil) (nat_lit 7977) (nat_lit 3305113390) .nil) (nat_lit 7978) (nat_lit 3221241424) (.node (.node .nil (nat_lit 7979) (nat_lit 3221241426) .nil) (nat_lit 7980) (nat_lit 3225435728) .nil)) (nat_lit 7981) (nat_lit 3225435730) (.node (.node (.node .nil (nat_lit 7982) (nat_lit 3498065488) .nil) (nat_lit 7983) (nat_lit 3498065490) .nil) (nat_lit 7984) (nat_lit 3300919154) (.node .nil (nat_lit 7985) (nat_lit 3305113458) .nil))) (nat_lit 7986) (nat_lit 3221241440) (.node (.node (.node (.node .nil (nat_lit 7987) (nat_lit 3221241442) .nil) (nat_lit 7988) (nat_lit 3225435744) .nil) (nat_lit 7989) (nat_lit 3225435746) (.node (.node .nil (nat_lit 7990) (nat_lit 3498065504) .nil) (nat_lit 7991) (nat_lit 3498065506) .nil)) (nat_lit 7992) (nat_lit 3300919090) (.node (.node (.node .nil (nat_lit 7993) (nat_lit 3305113394) .nil) (nat_lit 7994) (nat_lit 3221241456) .nil) (nat_lit 7995) (nat_lit 3221241458) (.node .nil (nat_lit 7996) (nat_lit 3225435760) .nil)))))

def decT001010 : Tree :=
  .node (.node (.node (.node (.node (.node (.node .nil (nat_lit 7998) (nat_lit 3498065520) .nil) (nat_lit 7999) (nat_lit 3498065522) .nil) (nat_lit 8000) (nat_lit 3300919166) (.node (.node .nil (nat_lit 8001) (nat_lit 3305113470) .nil) (nat_lit 8002) (nat_lit 3221241472) .nil)) (nat_lit 8003) (nat_lit 3221241474) (.node (.node (.node .nil (nat_lit 8004) (nat_lit 3225435776) .nil) (nat_lit 8005) (nat_lit 3225435778) .nil) (nat_lit 8008) (nat_lit 3300919102) (.node (.node .nil (nat_lit 8009) (nat_lit 3305113406) .nil) (nat_lit 8010) (nat_lit 3221241488) .nil))) (nat_lit 8011) (nat_lit 3221241490) (.node (.node (.node (.node .nil (nat_lit 8012) (nat_lit 3225435792) .nil) (nat_lit 8013) (nat_lit 3225435794) .nil) (nat_lit 8016) (nat_lit 3300919178) (.node (.node .nil (nat_lit 8017) (nat_lit 3305113482) .nil) (nat_lit 8018) (nat_lit 3221241504) .nil)) (nat_lit 8019) (nat_lit 3221241506) (.node (.node (.node .nil (nat_lit 8020) (nat_lit 3225435808) .nil) (nat_lit 8021) (nat_lit 3225435810) .nil) (nat_lit 8022) (nat_lit 3498065568) (.node .nil (nat_lit 8023) (nat_lit 3498065570) .nil)))) (nat_lit 8025) (nat_lit 3305113418) (.node (.node (.node (.node (.node .nil (nat_lit 8027) (nat_lit 3221241522) .nil) (nat_lit 8029) (nat_lit 3225435826) .nil) (nat_lit 8031) (nat_lit 3498065586) (.node (.node .nil (nat_lit 8032) (nat_lit 3300919186) .nil) (nat_lit 8033) (nat_lit 3305113490) .nil)) (nat_lit 8034) (nat_lit 3221241536) (.node (.node (.node .nil (nat_lit 8035) (nat_lit 3221241538) .nil) (nat_lit 8036) (nat_lit 3225435840) .nil) (nat_lit 8037) (nat_lit 3225435842) (.node .nil (nat_lit 8038) (nat_lit 3498065600) .nil))) (nat_lit 8039) (nat_lit 3498065602) (.node (.node (.node (.node .nil (nat_lit 8040) (nat_lit 3300919122) .nil) (nat_lit 8041) (nat_lit 3305113426) .nil) (nat_lit 8042) (nat_lit 3221241552) (.node (.node .nil (nat_lit 8043) (nat_lit 3221241554) .nil) (nat_lit 8044) (nat_lit 3225435856) .nil)) (nat_lit 8045) (nat_lit 3225435858) (.node (.node (.node .nil (nat_lit 8046) (nat_lit 3498065616) .nil) (nat_lit 8047) (nat_lit 3498065618) .nil) (nat_lit 8048) (nat_lit 3221227362) (.node .nil (nat_lit 8049) (nat_lit 1880) .nil))))) (nat_lit 8050) (nat_lit 3221227370) (.node (.node (.node (.node (.node (.node .nil (nat_lit 8051) (nat_lit 1882) .nil) (nat_lit 8052) (nat_lit 3221227374) .nil) (nat_lit 8053) (nat_lit 1884) (.node (.node .nil (nat_lit 8054) (nat_lit 3221227378) .nil) (nat_lit 8055) (nat_lit 1886) .nil)) (nat_lit 8056) (nat_lit 3221227390) (.node (.node (.node .nil (nat_lit 8057) (nat_lit 1944) .nil) (nat_lit 8058) (nat_lit 3221227402) .nil) (nat_lit 8059) (nat_lit 1946) (.node (.node .nil (nat_lit 8060) (nat_lit 3221227410) .nil) (nat_lit 8061) (nat_lit 1948) .nil))) (nat_lit 8064) (nat_lit 3510648320) (.node (.node (.node (.node .nil (nat_lit 8065) (nat_lit 3510648322) .nil) (nat_lit 8066) (nat_lit 3510648324) .nil) (nat_lit 8067) (nat_lit 3510648326) (.node (.node .nil (nat_lit 8068) (nat_lit 3510648328) .nil) (nat_lit 8069) (nat_lit 3510648330) .nil)) (nat_lit 8070) (nat_lit 3510648332) (.node (.node (.node .nil (nat_lit 8071) (nat_lit 3510648334) .nil) (nat_lit 8072) (nat_lit 3510648336) .nil) (nat_lit 8073) (nat_lit 3510648338) (.node .nil (nat_lit 8074) (nat_lit 3510648340) .nil)))) (nat_lit 8075) (nat_lit 3510648342) (.node (.node (.node (.node (.node .nil (nat_lit 8076) (nat_lit 3510648344) .nil) (nat_lit 8077) (nat_lit 3510648346) .nil) (nat_lit 8078) (nat_lit 3510648348) (.node (.node .nil (nat_lit 8079) (nat_lit 3510648350) .nil) (nat_lit 8080) (nat_lit 3510648384) .nil)) (nat_lit 8081) (nat_lit 3510648386) (.node (.node (.node .nil (nat_lit 8082) (nat_lit 3510648388) .nil) (nat_lit 8083) (nat_lit 3510648390) .nil) (nat_lit 8084) (nat_lit 3510648392) (.node .nil (nat_lit 8085) (nat_lit 3510648394) .nil))) (nat_lit 8086) (nat_lit 3510648396) (.node (.node (.node (.node .nil (nat_lit 8087) (nat_lit 3510648398) .nil) (nat_lit 8088) (nat_lit 3510648400) .nil) (nat_lit 8089) (nat_lit 3510648402) (.node (.node .nil (nat_lit 8090) (nat_lit 3510648404) .nil) (nat_lit 8091) (nat_lit 3510648406) .nil)) (nat_lit 8092) (nat_lit 3510648408) (.node (.node (.node .nil (nat_lit 8093) (nat_lit 3510648410) .nil) (nat_lit 8094) (nat_lit 3510648412) .nil) (nat_lit 8095) (nat_lit 3510648414) (.node .nil (nat_lit 8096) (nat_lit 3510648512) .nil)))))

def decT001011 : Tree :=
  .node (.node (.node (.node (.node (.node (.node .nil (nat_lit 8098) (nat_lit 3510648516) .nil) (nat_lit 8099) (nat_lit 3510648518) .nil) (nat_lit 8100) (nat_lit 3510648520) (.node (.node .nil (nat_lit 8101) (nat_lit 3510648522) .nil) (nat_lit 8102) (nat_lit 3510648524) .nil)) (nat_lit 8103) (nat_lit 3510648526) (.node (.node (.node .nil (nat_lit 8104) (nat_lit 3510648528) .nil) (nat_lit 8105) (nat_lit 3510648530) .nil) (nat_lit 8106) (nat_lit 3510648532) (.node (.node .nil (nat_lit 8107) (nat_lit 3510648534) .nil) (nat_lit 8108) (nat_lit 3510648536) .nil))) (nat_lit 8109) (nat_lit 3510648538) (.node (.node (.node (.node .nil (nat_lit 8110) (nat_lit 3510648540) .nil) (nat_lit 8111) (nat_lit 3510648542) .nil) (nat_lit 8112) (nat_lit 3246393186) (.node (.node .nil (nat_lit 8113) (nat_lit 3238004578) .nil) (nat_lit 8114) (nat_lit 3510648544) .nil)) (nat_lit 8115) (nat_lit 3510634338) (.node (.node (.node .nil (nat_lit 8116) (nat_lit 3510634328) .nil) (nat_lit 8118) (nat_lit 3498051426) .nil) (nat_lit 8119) (nat_lit 3510648684) (.node .nil (nat_lit 8120) (nat_lit 3246393122) .nil)))) (nat_lit 8121) (nat_lit 3238004514) (.node (.node (.node (.node (.node .nil (nat_lit 8122) (nat_lit 3221227298) .nil) (nat_lit 8123) (nat_lit 1804) .nil) (nat_lit 8124) (nat_lit 3510634274) (.node (.node .nil (nat_lit 8125) (nat_lit 3300917313) .nil) (nat_lit 8126) (nat_lit 1906) .nil)) (nat_lit 8127) (nat_lit 3300917313) (.node (.node (.node .nil (nat_lit 8128) (nat_lit 3498049601) .nil) (nat_lit 8129) (nat_lit 3498049872) .nil) (nat_lit 8130) (nat_lit 3510648552) (.node .nil (nat_lit 8131) (nat_lit 3510634350) .nil))) (nat_lit 8132) (nat_lit 3510634332) (.node (.node (.node (.node .nil (nat_lit 8134) (nat_lit 3498051438) .nil) (nat_lit 8135) (nat_lit 3510648716) .nil) (nat_lit 8136) (nat_lit 3221227306) (.node (.node .nil (nat_lit 8137) (nat_lit 1808) .nil) (nat_lit 8138) (nat_lit 3221227310) .nil)) (nat_lit 8139) (nat_lit 1810) (.node (.node (.node .nil (nat_lit 8140) (nat_lit 3510634286) .nil) (nat_lit 8141) (nat_lit 3221241726) .nil) (nat_lit 8142) (nat_lit 3225436030) (.node .nil (nat_lit 8143) (nat_lit 3498065790) .nil))))) (nat_lit 8144) (nat_lit 3246393202) (.node (.node (.node (.node (.node (.node .nil (nat_lit 8145) (nat_lit 3238004594) .nil) (nat_lit 8146) (nat_lit 3221227412) .nil) (nat_lit 8147) (nat_lit 1824) (.node (.node .nil (nat_lit 8150) (nat_lit 3498051442) .nil) (nat_lit 8151) (nat_lit 3498051476) .nil)) (nat_lit 8152) (nat_lit 3246393138) (.node (.node (.node .nil (nat_lit 8153) (nat_lit 3238004530) .nil) (nat_lit 8154) (nat_lit 3221227314) .nil) (nat_lit 8155) (nat_lit 1812) (.node .nil (nat_lit 8157) (nat_lit 3221241852) .nil))) (nat_lit 8158) (nat_lit 3225436156) (.node (.node (.node (.node .nil (nat_lit 8159) (nat_lit 3498065916) .nil) (nat_lit 8160) (nat_lit 3246393226) .nil) (nat_lit 8161) (nat_lit 3238004618) (.node (.node .nil (nat_lit 8162) (nat_lit 3221227414) .nil) (nat_lit 8163) (nat_lit 1888) .nil)) (nat_lit 8164) (nat_lit 3300919170) (.node (.node (.node .nil (nat_lit 8165) (nat_lit 3305113474) .nil) (nat_lit 8166) (nat_lit 3498051466) .nil) (nat_lit 8167) (nat_lit 3498051478) (.node .nil (nat_lit 8168) (nat_lit 3246393162) .nil)))) (nat_lit 8169) (nat_lit 3238004554) (.node (.node (.node (.node (.node .nil (nat_lit 8170) (nat_lit 3221227338) .nil) (nat_lit 8171) (nat_lit 1820) .nil) (nat_lit 8172) (nat_lit 3305113410) (.node (.node .nil (nat_lit 8173) (nat_lit 3221225808) .nil) (nat_lit 8174) (nat_lit 1802) .nil)) (nat_lit 8175) (nat_lit 192) (.node (.node (.node .nil (nat_lit 8178) (nat_lit 3510648568) .nil) (nat_lit 8179) (nat_lit 3510634386) .nil) (nat_lit 8180) (nat_lit 3510634396) (.node .nil (nat_lit 8182) (nat_lit 3498051474) .nil))) (nat_lit 8183) (nat_lit 3510648812) (.node (.node (.node (.node .nil (nat_lit 8184) (nat_lit 3221227326) .nil) (nat_lit 8185) (nat_lit 1816) .nil) (nat_lit 8186) (nat_lit 3221227346) (.node (.node .nil (nat_lit 8187) (nat_lit 1822) .nil) (nat_lit 8188) (nat_lit 3510634322) .nil)) (nat_lit 8189) (nat_lit 360) (.node (.node (.node .nil (nat_lit 8190) (nat_lit 3305111617) .nil) (nat_lit 8192) (nat_lit 16388) .nil) (nat_lit 8193) (nat_lit 16390) (.node .nil (nat_lit 8194) (nat_lit 65) .nil)))))

def decT001100 : Tree :=
  .node (.node (.node (.node (.node (.node (.node .nil (nat_lit 8196) (nat_lit 65) .nil) (nat_lit 8197) (nat_lit 65) .nil) (nat_lit 8198) (nat_lit 65) (.node (.node .nil (nat_lit 8199) (nat_lit 65) .nil) (nat_lit 8200) (nat_lit 65) .nil)) (nat_lit 8201) (nat_lit 65) (.node (.node (.node .nil (nat_lit 8202) (nat_lit 65) .nil) (nat_lit 8209) (nat_lit 16417) .nil) (nat_lit 8215) (nat_lit 3435135041) (.node (.node .nil (nat_lit 8228) (nat_lit 93) .nil) (nat_lit 8229) (nat_lit 192938077) .nil))) (nat_lit 8230) (nat_lit 404620471959645) (.node (.node (.node (.node .nil (nat_lit 8239) (nat_lit 65) .nil) (nat_lit 8243) (nat_lit 34569470053) .nil) (nat_lit 8244) (nat_lit 72497433258508389) (.node (.node .nil (nat_lit 8246) (nat_lit 34582052971) .nil) (nat_lit 8247) (nat_lit 72523821550157931) .nil)) (nat_lit 8252) (nat_lit 138412099) (.node (.node (.node .nil (nat_lit 8254) (nat_lit 3242197057) .nil) (nat_lit 8263) (nat_lit 264241279) .nil) (nat_lit 8264) (nat_lit 138412159) (.node .nil (nat_lit 8265) (nat_lit 264241219) .nil)))) (nat_lit 8279) (nat_lit 152038137152947382927461) (.node (.node (.node (.node (.node .nil (nat_lit 8287) (nat_lit 65) .nil) (nat_lit 8304) (nat_lit 97) .nil) (nat_lit 8305) (nat_lit 211) (.node (.node .nil (nat_lit 8308) (nat_lit 105) .nil) (nat_lit 8309) (nat_lit 107) .nil)) (nat_lit 8310) (nat_lit 109) (.node (.node (.node .nil (nat_lit 8311) (nat_lit 111) .nil) (nat_lit 8312) (nat_lit 113) .nil) (nat_lit 8313) (nat_lit 115) (.node .nil (nat_lit 8314) (nat_lit 87) .nil))) (nat_lit 8315) (nat_lit 17445) (.node (.node (.node (.node .nil (nat_lit 8316) (nat_lit 123) .nil) (nat_lit 8317) (nat_lit 81) .nil) (nat_lit 8318) (nat_lit 83) (.node (.node .nil (nat_lit 8319) (nat_lit 221) .nil) (nat_lit 8320) (nat_lit 97) .nil)) (nat_lit 8321) (nat_lit 99) (.node (.node (.node .nil (nat_lit 8322) (nat_lit 101) .nil) (nat_lit 8323) (nat_lit 103) .nil) (nat_lit 8324) (nat_lit 105) (.node .nil (nat_lit 8325) (nat_lit 107) .nil))))) (nat_lit 8326) (nat_lit 109) (.node (.node (.node (.node (.node (.node .nil (nat_lit 8327) (nat_lit 111) .nil) (nat_lit 8328) (nat_lit 113) .nil) (nat_lit 8329) (nat_lit 115) (.node (.node .nil (nat_lit 8330) (nat_lit 87) .nil) (nat_lit 8331) (nat_lit 17445) .nil)) (nat_lit 8332) (nat_lit 123) (.node (.node (.node .nil (nat_lit 8333) (nat_lit 81) .nil) (nat_lit 8334) (nat_lit 83) .nil) (nat_lit 8336) (nat_lit 195) (.node (.node .nil (nat_lit 8337) (nat_lit 203) .nil) (nat_lit 8338) (nat_lit 223) .nil))) (nat_lit 8339) (nat_lit 241) (.node (.node (.node (.node .nil (nat_lit 8340) (nat_lit 1203) .nil) (nat_lit 8341) (nat_lit 209) .nil) (nat_lit 8342) (nat_lit 215) (.node (.node .nil (nat_lit 8343) (nat_lit 217) .nil) (nat_lit 8344) (nat_lit 219) .nil)) (nat_lit 8345) (nat_lit 221) (.node (.node (.node .nil (nat_lit 8346) (nat_lit 225) .nil) (nat_lit 8347) (nat_lit 231) .nil) (nat_lit 8348) (nat_lit 233) (.node .nil (nat_lit 8360) (nat_lit 482345125) .nil)))) (nat_lit 8448) (nat_lit 870813406331075) (.node (.node (.node (.node (.node .nil (nat_lit 8449) (nat_lit 1011550894686403) .nil) (nat_lit 8450) (nat_lit 135) .nil) (nat_lit 8451) (nat_lit 281018721) (.node (.node .nil (nat_lit 8453) (nat_lit 976366522597575) .nil) (nat_lit 8454) (nat_lit 1029143080730823) .nil)) (nat_lit 8455) (nat_lit 801) (.node (.node (.node .nil (nat_lit 8457) (nat_lit 293601633) .nil) (nat_lit 8458) (nat_lit 207) .nil) (nat_lit 8459) (nat_lit 145) (.node .nil (nat_lit 8460) (nat_lit 145) .nil))) (nat_lit 8461) (nat_lit 145) (.node (.node (.node (.node .nil (nat_lit 8462) (nat_lit 209) .nil) (nat_lit 8463) (nat_lit 591) .nil) (nat_lit 8464) (nat_lit 147) (.node (.node .nil (nat_lit 8465) (nat_lit 147) .nil) (nat_lit 8466) (nat_lit 153) .nil)) (nat_lit 8467) (nat_lit 217) (.node (.node (.node .nil (nat_lit 8469) (nat_lit 157) .nil) (nat_lit 8470) (nat_lit 465567901) .nil) (nat_lit 8473) (nat_lit 161) (.node .nil (nat_lit 8474) (nat_lit 163) .nil)))))

def decT001101 : Tree :=
  .node (.node (.node (.node (.node (.node (.node .nil (nat_lit 8476) (nat_lit 165) .nil) (nat_lit 8477) (nat_lit 165) .nil) (nat_lit 8480) (nat_lit 322961575) (.node (.node .nil (nat_lit 8481) (nat_lit 668503359094953) .nil) (nat_lit 8482) (nat_lit 322961577) .nil)) (nat_lit 8484) (nat_lit 181) (.node (.node (.node .nil (nat_lit 8486) (nat_lit 1874) .nil) (nat_lit 8488) (nat_lit 181) .nil) (nat_lit 8490) (nat_lit 150) (.node (.node .nil (nat_lit 8491) (nat_lit 394) .nil) (nat_lit 8492) (nat_lit 133) .nil))) (nat_lit 8493) (nat_lit 135) (.node (.node (.node (.node .nil (nat_lit 8495) (nat_lit 203) .nil) (nat_lit 8496) (nat_lit 139) .nil) (nat_lit 8497) (nat_lit 141) (.node (.node .nil (nat_lit 8499) (nat_lit 155) .nil) (nat_lit 8500) (nat_lit 223) .nil)) (nat_lit 8501) (nat_lit 2977) (.node (.node (.node .nil (nat_lit 8502) (nat_lit 2979) .nil) (nat_lit 8503) (nat_lit 2981) .nil) (nat_lit 8504) (nat_lit 2983) (.node .nil (nat_lit 8505) (nat_lit 211) .nil)))) (nat_lit 8507) (nat_lit 774056458584205) (.node (.node (.node (.node (.node .nil (nat_lit 8508) (nat_lit 1921) .nil) (nat_lit 8509) (nat_lit 1895) .nil) (nat_lit 8510) (nat_lit 1831) (.node (.node .nil (nat_lit 8511) (nat_lit 1857) .nil) (nat_lit 8512) (nat_lit 17443) .nil)) (nat_lit 8517) (nat_lit 137) (.node (.node (.node .nil (nat_lit 8518) (nat_lit 201) .nil) (nat_lit 8519) (nat_lit 203) .nil) (nat_lit 8520) (nat_lit 211) (.node .nil (nat_lit 8521) (nat_lit 213) .nil))) (nat_lit 8528) (nat_lit 483819761172579) (.node (.node (.node (.node .nil (nat_lit 8529) (nat_lit 501411947216995) .nil) (nat_lit 8530) (nat_lit 885444146581261516899) .nil) (nat_lit 8531) (nat_lit 448635389083747) (.node (.node .nil (nat_lit 8532) (nat_lit 448635389083749) .nil) (nat_lit 8533) (nat_lit 466227575128163) .nil)) (nat_lit 8534) (nat_lit 466227575128165) (.node (.node (.node .nil (nat_lit 8535) (nat_lit 466227575128167) .nil) (nat_lit 8536) (nat_lit 466227575128169) .nil) (nat_lit 8537) (nat_lit 475023668150371) (.node .nil (nat_lit 8538) (nat_lit 475023668150379) .nil))))) (nat_lit 8539) (nat_lit 492615854194787) (.node (.node (.node (.node (.node (.node .nil (nat_lit 8540) (nat_lit 492615854194791) .nil) (nat_lit 8541) (nat_lit 492615854194795) .nil) (nat_lit 8542) (nat_lit 492615854194799) (.node (.node .nil (nat_lit 8543) (nat_lit 34644951139) .nil) (nat_lit 8544) (nat_lit 147) .nil)) (nat_lit 8545) (nat_lit 306184339) (.node (.node (.node .nil (nat_lit 8546) (nat_lit 642115096805523) .nil) (nat_lit 8547) (nat_lit 360710291) .nil) (nat_lit 8548) (nat_lit 173) (.node .nil (nat_lit 8549) (nat_lit 306184365) .nil))) (nat_lit 8550) (nat_lit 642115096805549) (.node (.node (.node (.node .nil (nat_lit 8551) (nat_lit 1346612959495894073517) .nil) (nat_lit 8552) (nat_lit 369098899) .nil) (nat_lit 8553) (nat_lit 177) (.node (.node .nil (nat_lit 8554) (nat_lit 306184369) .nil) (nat_lit 8555) (nat_lit 642115096805553) .nil)) (nat_lit 8556) (nat_lit 153) (.node (.node (.node .nil (nat_lit 8557) (nat_lit 135) .nil) (nat_lit 8558) (nat_lit 137) .nil) (nat_lit 8559) (nat_lit 155) (.node .nil (nat_lit 8560) (nat_lit 211) .nil)))) (nat_lit 8561) (nat_lit 440402131) (.node (.node (.node (.node (.node .nil (nat_lit 8562) (nat_lit 923590207733971) .nil) (nat_lit 8563) (nat_lit 494928083) .nil) (nat_lit 8564) (nat_lit 237) (.node (.node .nil (nat_lit 8565) (nat_lit 440402157) .nil) (nat_lit 8566) (nat_lit 923590207733997) .nil)) (nat_lit 8567) (nat_lit 1936909051329710653677) (.node (.node (.node .nil (nat_lit 8568) (nat_lit 503316691) .nil) (nat_lit 8569) (nat_lit 241) .nil) (nat_lit 8570) (nat_lit 440402161) (.node .nil (nat_lit 8571) (nat_lit 923590207734001) .nil))) (nat_lit 8572) (nat_lit 217) (.node (.node (.node (.node .nil (nat_lit 8573) (nat_lit 199) .nil) (nat_lit 8574) (nat_lit 201) .nil) (nat_lit 8575) (nat_lit 219) (.node (.node .nil (nat_lit 8585) (nat_lit 448635389083745) .nil) (nat_lit 8602) (nat_lit 3456123680) .nil)) (nat_lit 8603) (nat_lit 3456123684) (.node (.node (.node .nil (nat_lit 8622) (nat_lit 3456123688) .nil) (nat_lit 8653) (nat_lit 3456123808) .nil) (nat_lit 8654) (nat_lit 3456123816) (.node .nil (nat_lit 8655) (nat_lit 3456123812) .nil)))))

def decT001110 : Tree :=
  .node (.node (.node (.node (.node (.node (.node .nil (nat_lit 8713) (nat_lit 3456123920) .nil) (nat_lit 8716) (nat_lit 3456123926) .nil) (nat_lit 8740) (nat_lit 3456123974) (.node (.node .nil (nat_lit 8742) (nat_lit 3456123978) .nil) (nat_lit 8748) (nat_lit 36687594583) .nil)) (nat_lit 8749) (nat_lit 76939462352847959) (.node (.node (.node .nil (nat_lit 8751) (nat_lit 36700177501) .nil) (nat_lit 8752) (nat_lit 76965850644497501) .nil) (nat_lit 8769) (nat_lit 3456124024) (.node (.node .nil (nat_lit 8772) (nat_lit 3456124038) .nil) (nat_lit 8775) (nat_lit 3456124042) .nil))) (nat_lit 8777) (nat_lit 3456124048) (.node (.node (.node (.node .nil (nat_lit 8800) (nat_lit 3456106618) .nil) (nat_lit 8802) (nat_lit 3456124098) .nil) (nat_lit 8813) (nat_lit 3456124058) (.node (.node .nil (nat_lit 8814) (nat_lit 3456106616) .nil) (nat_lit 8815) (nat_lit 3456106620) .nil)) (nat_lit 8816) (nat_lit 3456124104) (.node (.node (.node .nil (nat_lit 8817) (nat_lit 3456124106) .nil) (nat_lit 8820) (nat_lit 3456124132) .nil) (nat_lit 8821) (nat_lit 3456124134) (.node .nil (nat_lit 8824) (nat_lit 3456124140) .nil)))) (nat_lit 8825) (nat_lit 3456124142) (.node (.node (.node (.node (.node .nil (nat_lit 8832) (nat_lit 3456124148) .nil) (nat_lit 8833) (nat_lit 3456124150) .nil) (nat_lit 8836) (nat_lit 3456124164) (.node (.node .nil (nat_lit 8837) (nat_lit 3456124166) .nil) (nat_lit 8840) (nat_lit 3456124172) .nil)) (nat_lit 8841) (nat_lit 3456124174) (.node (.node (.node .nil (nat_lit 8876) (nat_lit 3456124228) .nil) (nat_lit 8877) (nat_lit 3456124240) .nil) (nat_lit 8878) (nat_lit 3456124242) (.node .nil (nat_lit 8879) (nat_lit 3456124246) .nil))) (nat_lit 8928) (nat_lit 3456124152) (.node (.node (.node (.node .nil (nat_lit 8929) (nat_lit 3456124154) .nil) (nat_lit 8930) (nat_lit 3456124194) .nil) (nat_lit 8931) (nat_lit 3456124196) (.node (.node .nil (nat_lit 8938) (nat_lit 3456124260) .nil) (nat_lit 8939) (nat_lit 3456124262) .nil)) (nat_lit 8940) (nat_lit 3456124264) (.node (.node (.node .nil (nat_lit 8941) (nat_lit 3456124266) .nil) (nat_lit 9001) (nat_lit 24592) .nil) (nat_lit 9002) (nat_lit 24594) (.node .nil (nat_lit 9312) (nat_lit 99) .nil))))) (nat_lit 9313) (nat_lit 101) (.node (.node (.node (.node (.node (.node .nil (nat_lit 9314) (nat_lit 103) .nil) (nat_lit 9315) (nat_lit 105) .nil) (nat_lit 9316) (nat_lit 107) (.node (.node .nil (nat_lit 9317) (nat_lit 109) .nil) (nat_lit 9318) (nat_lit 111) .nil)) (nat_lit 9319) (nat_lit 113) (.node (.node (.node .nil (nat_lit 9320) (nat_lit 115) .nil) (nat_lit 9321) (nat_lit 201326691) .nil) (nat_lit 9322) (nat_lit 205520995) (.node (.node .nil (nat_lit 9323) (nat_lit 209715299) .nil) (nat_lit 9324) (nat_lit 213909603) .nil))) (nat_lit 9325) (nat_lit 218103907) (.node (.node (.node (.node .nil (nat_lit 9326) (nat_lit 222298211) .nil) (nat_lit 9327) (nat_lit 226492515) .nil) (nat_lit 9328) (nat_lit 230686819) (.node (.node .nil (nat_lit 9329) (nat_lit 234881123) .nil) (nat_lit 9330) (nat_lit 239075427) .nil)) (nat_lit 9331) (nat_lit 201326693) (.node (.node (.node .nil (nat_lit 9332) (nat_lit 360640019431505) .nil) (nat_lit 9333) (nat_lit 360640023625809) .nil) (nat_lit 9334) (nat_lit 360640027820113) (.node .nil (nat_lit 9335) (nat_lit 360640032014417) .nil)))) (nat_lit 9336) (nat_lit 360640036208721) (.node (.node (.node (.node (.node .nil (nat_lit 9337) (nat_lit 360640040403025) .nil) (nat_lit 9338) (nat_lit 360640044597329) .nil) (nat_lit 9339) (nat_lit 360640048791633) (.node (.node .nil (nat_lit 9340) (nat_lit 360640052985937) .nil) (nat_lit 9341) (nat_lit 756316929234762203217) .nil)) (nat_lit 9342) (nat_lit 756316938030855225425) (.node (.node (.node .nil (nat_lit 9343) (nat_lit 756316946826948247633) .nil) (nat_lit 9344) (nat_lit 756316955623041269841) .nil) (nat_lit 9345) (nat_lit 756316964419134292049) (.node .nil (nat_lit 9346) (nat_lit 756316973215227314257) .nil))) (nat_lit 9347) (nat_lit 756316982011320336465) (.node (.node (.node (.node .nil (nat_lit 9348) (nat_lit 756316990807413358673) .nil) (nat_lit 9349) (nat_lit 756316999603506380881) .nil) (nat_lit 9350) (nat_lit 756317008399599403089) (.node (.node .nil (nat_lit 9351) (nat_lit 756316929234766397521) .nil) (nat_lit 9352) (nat_lit 192938083) .nil)) (nat_lit 9353) (nat_lit 192938085) (.node (.node (.node .nil (nat_lit 9354) (nat_lit 192938087) .nil) (nat_lit 9355) (nat_lit 192938089) .nil) (nat_lit 9356) (nat_lit 192938091) (.node .nil (nat_lit 9357) (nat_lit 192938093) .nil)))))

def decT001111 : Tree :=
  .node (.node (.node (.node (.node (.node (.node .nil (nat_lit 9359) (nat_lit 192938097) .nil) (nat_lit 9360) (nat_lit 192938099) .nil) (nat_lit 9361) (nat_lit 404620480348259) (.node (.node .nil (nat_lit 9362) (nat_lit 404620484542563) .nil) (nat_lit 9363) (nat_lit 404620488736867) .nil)) (nat_lit 9364) (nat_lit 404620492931171) (.node (.node (.node .nil (nat_lit 9365) (nat_lit 404620497125475) .nil) (nat_lit 9366) (nat_lit 404620501319779) .nil) (nat_lit 9367) (nat_lit 404620505514083) (.node (.node .nil (nat_lit 9368) (nat_lit 404620509708387) .nil) (nat_lit 9369) (nat_lit 404620513902691) .nil))) (nat_lit 9370) (nat_lit 404620518096995) (.node (.node (.node (.node .nil (nat_lit 9371) (nat_lit 404620480348261) .nil) (nat_lit 9372) (nat_lit 360640220758097) .nil) (nat_lit 9373) (nat_lit 360640224952401) (.node (.node .nil (nat_lit 9374) (nat_lit 360640229146705) .nil) (nat_lit 9375) (nat_lit 360640233341009) .nil)) (nat_lit 9376) (nat_lit 360640237535313) (.node (.node (.node .nil (nat_lit 9377) (nat_lit 360640241729617) .nil) (nat_lit 9378) (nat_lit 360640245923921) .nil) (nat_lit 9379) (nat_lit 360640250118225) (.node .nil (nat_lit 9380) (nat_lit 360640254312529) .nil)))) (nat_lit 9381) (nat_lit 360640258506833) (.node (.node (.node (.node (.node .nil (nat_lit 9382) (nat_lit 360640262701137) .nil) (nat_lit 9383) (nat_lit 360640266895441) .nil) (nat_lit 9384) (nat_lit 360640271089745) (.node (.node .nil (nat_lit 9385) (nat_lit 360640275284049) .nil) (nat_lit 9386) (nat_lit 360640279478353) .nil)) (nat_lit 9387) (nat_lit 360640283672657) (.node (.node (.node .nil (nat_lit 9388) (nat_lit 360640287866961) .nil) (nat_lit 9389) (nat_lit 360640292061265) .nil) (nat_lit 9390) (nat_lit 360640296255569) (.node .nil (nat_lit 9391) (nat_lit 360640300449873) .nil))) (nat_lit 9392) (nat_lit 360640304644177) (.node (.node (.node (.node .nil (nat_lit 9393) (nat_lit 360640308838481) .nil) (nat_lit 9394) (nat_lit 360640313032785) .nil) (nat_lit 9395) (nat_lit 360640317227089) (.node (.node .nil (nat_lit 9396) (nat_lit 360640321421393) .nil) (nat_lit 9397) (nat_lit 360640325615697) .nil)) (nat_lit 9398) (nat_lit 131) (.node (.node (.node .nil (nat_lit 9399) (nat_lit 133) .nil) (nat_lit 9400) (nat_lit 135) .nil) (nat_lit 9401) (nat_lit 137) (.node .nil (nat_lit 9402) (nat_lit 139) .nil))))) (nat_lit 9403) (nat_lit 141) (.node (.node (.node (.node (.node (.node .nil (nat_lit 9404) (nat_lit 143) .nil) (nat_lit 9405) (nat_lit 145) .nil) (nat_lit 9406) (nat_lit 147) (.node (.node .nil (nat_lit 9407) (nat_lit 149) .nil) (nat_lit 9408) (nat_lit 151) .nil)) (nat_lit 9409) (nat_lit 153) (.node (.node (.node .nil (nat_lit 9410) (nat_lit 155) .nil) (nat_lit 9411) (nat_lit 157) .nil) (nat_lit 9412) (nat_lit 159) (.node .nil (nat_lit 9413) (nat_lit 161) .nil))) (nat_lit 9414) (nat_lit 163) (.node (.node (.node (.node .nil (nat_lit 9415) (nat_lit 165) .nil) (nat_lit 9416) (nat_lit 167) .nil) (nat_lit 9417) (nat_lit 169) (.node (.node .nil (nat_lit 9418) (nat_lit 171) .nil) (nat_lit 9419) (nat_lit 173) .nil)) (nat_lit 9420) (nat_lit 175) (.node (.node (.node .nil (nat_lit 9421) (nat_lit 177) .nil) (nat_lit 9422) (nat_lit 179) .nil) (nat_lit 9423) (nat_lit 181) (.node .nil (nat_lit 9424) (nat_lit 195) .nil)))) (nat_lit 9425) (nat_lit 197) (.node (.node (.node (.node (.node .nil (nat_lit 9426) (nat_lit 199) .nil) (nat_lit 9427) (nat_lit 201) .nil) (nat_lit 9428) (nat_lit 203) (.node (.node .nil (nat_lit 9429) (nat_lit 205) .nil) (nat_lit 9430) (nat_lit 207) .nil)) (nat_lit 9431) (nat_lit 209) (.node (.node (.node .nil (nat_lit 9432) (nat_lit 211) .nil) (nat_lit 9433) (nat_lit 213) .nil) (nat_lit 9434) (nat_lit 215) (.node .nil (nat_lit 9435) (nat_lit 217) .nil))) (nat_lit 9436) (nat_lit 219) (.node (.node (.node (.node .nil (nat_lit 9437) (nat_lit 221) .nil) (nat_lit 9438) (nat_lit 223) .nil) (nat_lit 9439) (nat_lit 225) (.node (.node .nil (nat_lit 9440) (nat_lit 227) .nil) (nat_lit 9441) (nat_lit 229) .nil)) (nat_lit 9442) (nat_lit 231) (.node (.node (.node .nil (nat_lit 9443) (nat_lit 233) .nil) (nat_lit 9444) (nat_lit 235) .nil) (nat_lit 9445) (nat_lit 237) (.node .nil (nat_lit 9446) (nat_lit 239) .nil)))))

def decT010000 : Tree :=
  .node (.node (.node (.node (.node (.node (.node .nil (nat_lit 9448) (nat_lit 243) .nil) (nat_lit 9449) (nat_lit 245) .nil) (nat_lit 9450) (nat_lit 97) (.node (.node .nil (nat_lit 10764) (nat_lit 161353747352199800833111) .nil) (nat_lit 10868) (nat_lit 536561917624437) .nil)) (nat_lit 10869) (nat_lit 255852667) (.node (.node (.node .nil (nat_lit 10870) (nat_lit 536561930207355) .nil) (nat_lit 10972) (nat_lit 3456128442) .nil) (nat_lit 11388) (nat_lit 213) (.node (.node .nil (nat_lit 11389) (nat_lit 173) .nil) (nat_lit 11631) (nat_lit 23235) .nil))) (nat_lit 11935) (nat_lit 55195) (.node (.node (.node (.node .nil (nat_lit 12019) (nat_lit 81727) .nil) (nat_lit 12032) (nat_lit 39937) .nil) (nat_lit 12033) (nat_lit 40017) (.node (.node .nil (nat_lit 12034) (nat_lit 40045) .nil) (nat_lit 12035) (nat_lit 40063) .nil)) (nat_lit 12036) (nat_lit 40115) (.node (.node (.node .nil (nat_lit 12037) (nat_lit 40203) .nil) (nat_lit 12038) (nat_lit 40217) .nil) (nat_lit 12039) (nat_lit 40257) (.node .nil (nat_lit 12040) (nat_lit 40309) .nil)))) (nat_lit 12041) (nat_lit 41599) (.node (.node (.node (.node (.node .nil (nat_lit 12042) (nat_lit 41675) .nil) (nat_lit 12043) (nat_lit 41687) .nil) (nat_lit 12044) (nat_lit 41733) (.node (.node .nil (nat_lit 12045) (nat_lit 41773) .nil) (nat_lit 12046) (nat_lit 41815) .nil)) (nat_lit 12047) (nat_lit 41921) (.node (.node (.node .nil (nat_lit 12048) (nat_lit 41963) .nil) (nat_lit 12049) (nat_lit 41985) .nil) (nat_lit 12050) (nat_lit 42295) (.node .nil (nat_lit 12051) (nat_lit 42483) .nil))) (nat_lit 12052) (nat_lit 42539) (.node (.node (.node (.node .nil (nat_lit 12053) (nat_lit 42549) .nil) (nat_lit 12054) (nat_lit 42609) .nil) (nat_lit 12055) (nat_lit 42627) (.node (.node .nil (nat_lit 12056) (nat_lit 42681) .nil) (nat_lit 12057) (nat_lit 42707) .nil)) (nat_lit 12058) (nat_lit 42757) (.node (.node (.node .nil (nat_lit 12059) (nat_lit 42861) .nil) (nat_lit 12060) (nat_lit 42897) .nil) (nat_lit 12061) (nat_lit 42951) (.node .nil (nat_lit 12062) (nat_lit 44463) .nil))))) (nat_lit 12063) (nat_lit 44607) (.node (.node (.node (.node (.node (.node .nil (nat_lit 12064) (nat_lit 45527) .nil) (nat_lit 12065) (nat_lit 45573) .nil) (nat_lit 12066) (nat_lit 45589) (.node (.node .nil (nat_lit 12067) (nat_lit 45611) .nil) (nat_lit 12068) (nat_lit 45647) .nil)) (nat_lit 12069) (nat_lit 45799) (.node (.node (.node .nil (nat_lit 12070) (nat_lit 46753) .nil) (nat_lit 12071) (nat_lit 46849) .nil) (nat_lit 12072) (nat_lit 47089) (.node (.node .nil (nat_lit 12073) (nat_lit 47135) .nil) (nat_lit 12074) (nat_lit 47173) .nil))) (nat_lit 12075) (nat_lit 47217) (.node (.node (.node (.node .nil (nat_lit 12076) (nat_lit 47325) .nil) (nat_lit 12077) (nat_lit 47331) .nil) (nat_lit 12078) (nat_lit 48055) (.node (.node .nil (nat_lit 12079) (nat_lit 48075) .nil) (nat_lit 12080) (nat_lit 48099) .nil)) (nat_lit 12081) (nat_lit 48125) (.node (.node (.node .nil (nat_lit 12082) (nat_lit 48357) .nil) (nat_lit 12083) (nat_lit 48373) .nil) (nat_lit 12084) (nat_lit 48383) (.node .nil (nat_lit 12085) (nat_lit 48617) .nil)))) (nat_lit 12086) (nat_lit 48637) (.node (.node (.node (.node (.node .nil (nat_lit 12087) (nat_lit 48663) .nil) (nat_lit 12088) (nat_lit 48679) .nil) (nat_lit 12089) (nat_lit 48801) (.node (.node .nil (nat_lit 12090) (nat_lit 48835) .nil) (nat_lit 12091) (nat_lit 48871) .nil)) (nat_lit 12092) (nat_lit 49031) (.node (.node (.node .nil (nat_lit 12093) (nat_lit 50193) .nil) (nat_lit 12094) (nat_lit 50285) .nil) (nat_lit 12095) (nat_lit 50327) (.node .nil (nat_lit 12096) (nat_lit 51807) .nil))) (nat_lit 12097) (nat_lit 51817) (.node (.node (.node (.node .nil (nat_lit 12098) (nat_lit 51983) .nil) (nat_lit 12099) (nat_lit 52015) .nil) (nat_lit 12100) (nat_lit 52041) (.node (.node .nil (nat_lit 12101) (nat_lit 52083) .nil) (nat_lit 12102) (nat_lit 52161) .nil)) (nat_lit 12103) (nat_lit 52171) (.node (.node (.node .nil (nat_lit 12104) (nat_lit 52705) .nil) (nat_lit 12105) (nat_lit 52753) .nil) (nat_lit 12106) (nat_lit 52817) (.node .nil (nat_lit 12107) (nat_lit 54849) .nil)))))

def decT010001 : Tree :=
  .node (.node (.node (.node (.node (.node (.node .nil (nat_lit 12109) (nat_lit 55027) .nil) (nat_lit 12110) (nat_lit 55143) .nil) (nat_lit 12111) (nat_lit 55191) (.node (.node .nil (nat_lit 12112) (nat_lit 55209) .nil) (nat_lit 12113) (nat_lit 55223) .nil)) (nat_lit 12114) (nat_lit 55327) (.node (.node (.node .nil (nat_lit 12115) (nat_lit 55337) .nil) (nat_lit 12116) (nat_lit 55401) .nil) (nat_lit 12117) (nat_lit 57559) (.node (.node .nil (nat_lit 12118) (nat_lit 58453) .nil) (nat_lit 12119) (nat_lit 58477) .nil))) (nat_lit 12120) (nat_lit 58487) (.node (.node (.node (.node .nil (nat_lit 12121) (nat_lit 58495) .nil) (nat_lit 12122) (nat_lit 58511) .nil) (nat_lit 12123) (nat_lit 58547) (.node (.node .nil (nat_lit 12124) (nat_lit 58551) .nil) (nat_lit 12125) (nat_lit 58713) .nil)) (nat_lit 12126) (nat_lit 59145) (.node (.node (.node .nil (nat_lit 12127) (nat_lit 59155) .nil) (nat_lit 12128) (nat_lit 59833) .nil) (nat_lit 12129) (nat_lit 59853) (.node .nil (nat_lit 12130) (nat_lit 59953) .nil)))) (nat_lit 12131) (nat_lit 59967) (.node (.node (.node (.node (.node .nil (nat_lit 12132) (nat_lit 59985) .nil) (nat_lit 12133) (nat_lit 60001) .nil) (nat_lit 12134) (nat_lit 60183) (.node (.node .nil (nat_lit 12135) (nat_lit 60197) .nil) (nat_lit 12136) (nat_lit 60653) .nil)) (nat_lit 12137) (nat_lit 60667) (.node (.node (.node .nil (nat_lit 12138) (nat_lit 60765) .nil) (nat_lit 12139) (nat_lit 60799) .nil) (nat_lit 12140) (nat_lit 60893) (.node .nil (nat_lit 12141) (nat_lit 61367) .nil))) (nat_lit 12142) (nat_lit 61381) (.node (.node (.node (.node .nil (nat_lit 12143) (nat_lit 61415) .nil) (nat_lit 12144) (nat_lit 62069) .nil) (nat_lit 12145) (nat_lit 62321) (.node (.node .nil (nat_lit 12146) (nat_lit 62333) .nil) (nat_lit 12147) (nat_lit 62697) .nil)) (nat_lit 12148) (nat_lit 62871) (.node (.node (.node .nil (nat_lit 12149) (nat_lit 62963) .nil) (nat_lit 12150) (nat_lit 63719) .nil) (nat_lit 12151) (nat_lit 63985) (.node .nil (nat_lit 12152) (nat_lit 65133) .nil))))) (nat_lit 12153) (nat_lit 65187) (.node (.node (.node (.node (.node (.node .nil (nat_lit 12154) (nat_lit 65301) .nil) (nat_lit 12155) (nat_lit 65403) .nil) (nat_lit 12156) (nat_lit 65539) (.node (.node .nil (nat_lit 12157) (nat_lit 65561) .nil) (nat_lit 12158) (nat_lit 65573) .nil)) (nat_lit 12159) (nat_lit 65639) (.node (.node (.node .nil (nat_lit 12160) (nat_lit 65791) .nil) (nat_lit 12161) (nat_lit 65811) .nil) (nat_lit 12162) (nat_lit 66503) (.node .nil (nat_lit 12163) (nat_lit 66517) .nil))) (nat_lit 12164) (nat_lit 66535) (.node (.node (.node (.node .nil (nat_lit 12165) (nat_lit 66553) .nil) (nat_lit 12166) (nat_lit 66585) .nil) (nat_lit 12167) (nat_lit 66615) (.node (.node .nil (nat_lit 12168) (nat_lit 66623) .nil) (nat_lit 12169) (nat_lit 66781) .nil)) (nat_lit 12170) (nat_lit 66789) (.node (.node (.node .nil (nat_lit 12171) (nat_lit 66801) .nil) (nat_lit 12172) (nat_lit 68763) .nil) (nat_lit 12173) (nat_lit 68823) (.node .nil (nat_lit 12174) (nat_lit 69761) .nil)))) (nat_lit 12175) (nat_lit 69785) (.node (.node (.node (.node (.node .nil (nat_lit 12176) (nat_lit 69831) .nil) (nat_lit 12177) (nat_lit 70397) .nil) (nat_lit 12178) (nat_lit 70423) (.node (.node .nil (nat_lit 12179) (nat_lit 70565) .nil) (nat_lit 12180) (nat_lit 70657) .nil)) (nat_lit 12181) (nat_lit 71791) (.node (.node (.node .nil (nat_lit 12182) (nat_lit 71821) .nil) (nat_lit 12183) (nat_lit 71851) .nil) (nat_lit 12184) (nat_lit 71921) (.node .nil (nat_lit 12185) (nat_lit 71995) .nil))) (nat_lit 12186) (nat_lit 72393) (.node (.node (.node (.node .nil (nat_lit 12187) (nat_lit 72417) .nil) (nat_lit 12188) (nat_lit 72551) .nil) (nat_lit 12189) (nat_lit 73047) (.node (.node .nil (nat_lit 12190) (nat_lit 73109) .nil) (nat_lit 12191) (nat_lit 73527) .nil)) (nat_lit 12192) (nat_lit 73569) (.node (.node (.node .nil (nat_lit 12193) (nat_lit 73579) .nil) (nat_lit 12194) (nat_lit 74019) .nil) (nat_lit 12195) (nat_lit 74387) (.node .nil (nat_lit 12196) (nat_lit 74637) .nil)))))

def decT010010 : Tree :=
  .node (.node (.node (.node (.node (.node (.node .nil (nat_lit 12198) (nat_lit 74659) .nil) (nat_lit 12199) (nat_lit 76527) .nil) (nat_lit 12200) (nat_lit 76545) (.node (.node .nil (nat_lit 12201) (nat_lit 76857) .nil) (nat_lit 12202) (nat_lit 77165) .nil)) (nat_lit 12203) (nat_lit 77171) (.node (.node (.node .nil (nat_lit 12204) (nat_lit 77265) .nil) (nat_lit 12205) (nat_lit 77475) .nil) (nat_lit 12206) (nat_lit 77501) (.node (.node .nil (nat_lit 12207) (nat_lit 77509) .nil) (nat_lit 12208) (nat_lit 77523) .nil))) (nat_lit 12209) (nat_lit 77719) (.node (.node (.node (.node .nil (nat_lit 12210) (nat_lit 77787) .nil) (nat_lit 12211) (nat_lit 77799) .nil) (nat_lit 12212) (nat_lit 77827) (.node (.node .nil (nat_lit 12213) (nat_lit 78161) .nil) (nat_lit 12214) (nat_lit 78263) .nil)) (nat_lit 12215) (nat_lit 78271) (.node (.node (.node .nil (nat_lit 12216) (nat_lit 78637) .nil) (nat_lit 12217) (nat_lit 78643) .nil) (nat_lit 12218) (nat_lit 78681) (.node .nil (nat_lit 12219) (nat_lit 79185) .nil)))) (nat_lit 12220) (nat_lit 79281) (.node (.node (.node (.node (.node .nil (nat_lit 12221) (nat_lit 79295) .nil) (nat_lit 12222) (nat_lit 79435) .nil) (nat_lit 12223) (nat_lit 79455) (.node (.node .nil (nat_lit 12224) (nat_lit 79461) .nil) (nat_lit 12225) (nat_lit 79481) .nil)) (nat_lit 12226) (nat_lit 79541) (.node (.node (.node .nil (nat_lit 12227) (nat_lit 80331) .nil) (nat_lit 12228) (nat_lit 81131) .nil) (nat_lit 12229) (nat_lit 81151) (.node .nil (nat_lit 12230) (nat_lit 81227) .nil))) (nat_lit 12231) (nat_lit 81271) (.node (.node (.node (.node .nil (nat_lit 12232) (nat_lit 81287) .nil) (nat_lit 12233) (nat_lit 81307) .nil) (nat_lit 12234) (nat_lit 81315) (.node (.node .nil (nat_lit 12235) (nat_lit 81395) .nil) (nat_lit 12236) (nat_lit 81403) .nil)) (nat_lit 12237) (nat_lit 81437) (.node (.node (.node .nil (nat_lit 12238) (nat_lit 81447) .nil) (nat_lit 12239) (nat_lit 81473) .nil) (nat_lit 12240) (nat_lit 81527) (.node .nil (nat_lit 12241) (nat_lit 81557) .nil))))) (nat_lit 12242) (nat_lit 81573) (.node (.node (.node (.node (.node (.node .nil (nat_lit 12243) (nat_lit 81691) .nil) (nat_lit 12244) (nat_lit 81721) .nil) (nat_lit 12245) (nat_lit 81729) (.node (.node .nil (nat_lit 12288) (nat_lit 65) .nil) (nat_lit 12342) (nat_lit 24613) .nil)) (nat_lit 12344) (nat_lit 42627) (.node (.node (.node .nil (nat_lit 12345) (nat_lit 42633) .nil) (nat_lit 12346) (nat_lit 42635) .nil) (nat_lit 12364) (nat_lit 52181360790) (.node (.node .nil (nat_lit 12366) (nat_lit 52181360794) .nil) (nat_lit 12368) (nat_lit 52181360798) .nil))) (nat_lit 12370) (nat_lit 52181360802) (.node (.node (.node (.node .nil (nat_lit 12372) (nat_lit 52181360806) .nil) (nat_lit 12374) (nat_lit 52181360810) .nil) (nat_lit 12376) (nat_lit 52181360814) (.node (.node .nil (nat_lit 12378) (nat_lit 52181360818) .nil) (nat_lit 12380) (nat_lit 52181360822) .nil)) (nat_lit 12382) (nat_lit 52181360826) (.node (.node (.node .nil (nat_lit 12384) (nat_lit 52181360830) .nil) (nat_lit 12386) (nat_lit 52181360834) .nil) (nat_lit 12389) (nat_lit 52181360840) (.node .nil (nat_lit 12391) (nat_lit 52181360844) .nil)))) (nat_lit 12393) (nat_lit 52181360848) (.node (.node (.node (.node (.node .nil (nat_lit 12400) (nat_lit 52181360862) .nil) (nat_lit 12401) (nat_lit 52185555166) .nil) (nat_lit 12403) (nat_lit 52181360868) (.node (.node .nil (nat_lit 12404) (nat_lit 52185555172) .nil) (nat_lit 12406) (nat_lit 52181360874) .nil)) (nat_lit 12407) (nat_lit 52185555178) (.node (.node (.node .nil (nat_lit 12409) (nat_lit 52181360880) .nil) (nat_lit 12410) (nat_lit 52185555184) .nil) (nat_lit 12412) (nat_lit 52181360886) (.node .nil (nat_lit 12413) (nat_lit 52185555190) .nil))) (nat_lit 12436) (nat_lit 52181360780) (.node (.node (.node (.node .nil (nat_lit 12443) (nat_lit 52181336129) .nil) (nat_lit 12444) (nat_lit 52185530433) .nil) (nat_lit 12446) (nat_lit 52181360954) (.node (.node .nil (nat_lit 12447) (nat_lit 52118446353) .nil) (nat_lit 12460) (nat_lit 52181360982) .nil)) (nat_lit 12462) (nat_lit 52181360986) (.node (.node (.node .nil (nat_lit 12464) (nat_lit 52181360990) .nil) (nat_lit 12466) (nat_lit 52181360994) .nil) (nat_lit 12468) (nat_lit 52181360998) (.node .nil (nat_lit 12470) (nat_lit 52181361002) .nil)))))

def decT010011 : Tree :=
  .node (.node (.node (.node (.node (.node (.node .nil (nat_lit 12474) (nat_lit 52181361010) .nil) (nat_lit 12476) (nat_lit 52181361014) .nil) (nat_lit 12478) (nat_lit 52181361018) (.node (.node .nil (nat_lit 12480) (nat_lit 52181361022) .nil) (nat_lit 12482) (nat_lit 52181361026) .nil)) (nat_lit 12485) (nat_lit 52181361032) (.node (.node (.node .nil (nat_lit 12487) (nat_lit 52181361036) .nil) (nat_lit 12489) (nat_lit 52181361040) .nil) (nat_lit 12496) (nat_lit 52181361054) (.node (.node .nil (nat_lit 12497) (nat_lit 52185555358) .nil) (nat_lit 12499) (nat_lit 52181361060) .nil))) (nat_lit 12500) (nat_lit 52185555364) (.node (.node (.node (.node .nil (nat_lit 12502) (nat_lit 52181361066) .nil) (nat_lit 12503) (nat_lit 52185555370) .nil) (nat_lit 12505) (nat_lit 52181361072) (.node (.node .nil (nat_lit 12506) (nat_lit 52185555376) .nil) (nat_lit 12508) (nat_lit 52181361078) .nil)) (nat_lit 12509) (nat_lit 52185555382) (.node (.node (.node .nil (nat_lit 12532) (nat_lit 52181360972) .nil) (nat_lit 12535) (nat_lit 52181361118) .nil) (nat_lit 12536) (nat_lit 52181361120) (.node .nil (nat_lit 12537) (nat_lit 52181361122) .nil)))) (nat_lit 12538) (nat_lit 52181361124) (.node (.node (.node (.node (.node .nil (nat_lit 12542) (nat_lit 52181361146) .nil) (nat_lit 12543) (nat_lit 52378493287) .nil) (nat_lit 12593) (nat_lit 8705) (.node (.node .nil (nat_lit 12594) (nat_lit 8707) .nil) (nat_lit 12595) (nat_lit 9045) .nil)) (nat_lit 12596) (nat_lit 8709) (.node (.node (.node .nil (nat_lit 12597) (nat_lit 9049) .nil) (nat_lit 12598) (nat_lit 9051) .nil) (nat_lit 12599) (nat_lit 8711) (.node .nil (nat_lit 12600) (nat_lit 8713) .nil))) (nat_lit 12601) (nat_lit 8715) (.node (.node (.node (.node .nil (nat_lit 12602) (nat_lit 9057) .nil) (nat_lit 12603) (nat_lit 9059) .nil) (nat_lit 12604) (nat_lit 9061) (.node (.node .nil (nat_lit 12605) (nat_lit 9063) .nil) (nat_lit 12606) (nat_lit 9065) .nil)) (nat_lit 12607) (nat_lit 9067) (.node (.node (.node .nil (nat_lit 12608) (nat_lit 8757) .nil) (nat_lit 12609) (nat_lit 8717) .nil) (nat_lit 12610) (nat_lit 8719) (.node .nil (nat_lit 12611) (nat_lit 8721) .nil))))) (nat_lit 12612) (nat_lit 8771) (.node (.node (.node (.node (.node (.node .nil (nat_lit 12613) (nat_lit 8723) .nil) (nat_lit 12614) (nat_lit 8725) .nil) (nat_lit 12615) (nat_lit 8727) (.node (.node .nil (nat_lit 12616) (nat_lit 8729) .nil) (nat_lit 12617) (nat_lit 8731) .nil)) (nat_lit 12618) (nat_lit 8733) (.node (.node (.node .nil (nat_lit 12619) (nat_lit 8735) .nil) (nat_lit 12620) (nat_lit 8737) .nil) (nat_lit 12621) (nat_lit 8739) (.node .nil (nat_lit 12622) (nat_lit 8741) .nil))) (nat_lit 12623) (nat_lit 8899) (.node (.node (.node (.node .nil (nat_lit 12624) (nat_lit 8901) .nil) (nat_lit 12625) (nat_lit 8903) .nil) (nat_lit 12626) (nat_lit 8905) (.node (.node .nil (nat_lit 12627) (nat_lit 8907) .nil) (nat_lit 12628) (nat_lit 8909) .nil)) (nat_lit 12629) (nat_lit 8911) (.node (.node (.node .nil (nat_lit 12630) (nat_lit 8913) .nil) (nat_lit 12631) (nat_lit 8915) .nil) (nat_lit 12632) (nat_lit 8917) (.node .nil (nat_lit 12633) (nat_lit 8919) .nil)))) (nat_lit 12634) (nat_lit 8921) (.node (.node (.node (.node (.node .nil (nat_lit 12635) (nat_lit 8923) .nil) (nat_lit 12636) (nat_lit 8925) .nil) (nat_lit 12637) (nat_lit 8927) (.node (.node .nil (nat_lit 12638) (nat_lit 8929) .nil) (nat_lit 12639) (nat_lit 8931) .nil)) (nat_lit 12640) (nat_lit 8933) (.node (.node (.node .nil (nat_lit 12641) (nat_lit 8935) .nil) (nat_lit 12642) (nat_lit 8937) .nil) (nat_lit 12643) (nat_lit 8939) (.node .nil (nat_lit 12644) (nat_lit 8897) .nil))) (nat_lit 12645) (nat_lit 8745) (.node (.node (.node (.node .nil (nat_lit 12646) (nat_lit 8747) .nil) (nat_lit 12647) (nat_lit 9103) .nil) (nat_lit 12648) (nat_lit 9105) (.node (.node .nil (nat_lit 12649) (nat_lit 9113) .nil) (nat_lit 12650) (nat_lit 9117) .nil)) (nat_lit 12651) (nat_lit 9127) (.node (.node (.node .nil (nat_lit 12652) (nat_lit 9135) .nil) (nat_lit 12653) (nat_lit 9139) .nil) (nat_lit 12654) (nat_lit 8761) (.node .nil (nat_lit 12655) (nat_lit 9147) .nil)))))

def decT010100 : Tree :=
  .node (.node (.node (.node (.node (.node (.node .nil (nat_lit 12657) (nat_lit 8763) .nil) (nat_lit 12658) (nat_lit 8765) .nil) (nat_lit 12659) (nat_lit 8769) (.node (.node .nil (nat_lit 12660) (nat_lit 8773) .nil) (nat_lit 12661) (nat_lit 8775) .nil)) (nat_lit 12662) (nat_lit 8783) (.node (.node (.node .nil (nat_lit 12663) (nat_lit 8787) .nil) (nat_lit 12664) (nat_lit 8791) .nil) (nat_lit 12665) (nat_lit 8793) (.node (.node .nil (nat_lit 12666) (nat_lit 8795) .nil) (nat_lit 12667) (nat_lit 8797) .nil))) (nat_lit 12668) (nat_lit 8799) (.node (.node (.node (.node .nil (nat_lit 12669) (nat_lit 8805) .nil) (nat_lit 12670) (nat_lit 8813) .nil) (nat_lit 12671) (nat_lit 8833) (.node (.node .nil (nat_lit 12672) (nat_lit 8847) .nil) (nat_lit 12673) (nat_lit 8857) .nil)) (nat_lit 12674) (nat_lit 9187) (.node (.node (.node .nil (nat_lit 12675) (nat_lit 9189) .nil) (nat_lit 12676) (nat_lit 8879) .nil) (nat_lit 12677) (nat_lit 8881) (.node .nil (nat_lit 12678) (nat_lit 8883) .nil)))) (nat_lit 12679) (nat_lit 8969) (.node (.node (.node (.node (.node .nil (nat_lit 12680) (nat_lit 8971) .nil) (nat_lit 12681) (nat_lit 8977) .nil) (nat_lit 12682) (nat_lit 8995) (.node (.node .nil (nat_lit 12683) (nat_lit 8997) .nil) (nat_lit 12684) (nat_lit 9001) .nil)) (nat_lit 12685) (nat_lit 9021) (.node (.node (.node .nil (nat_lit 12686) (nat_lit 9027) .nil) (nat_lit 12690) (nat_lit 39937) .nil) (nat_lit 12691) (nat_lit 40217) (.node .nil (nat_lit 12692) (nat_lit 39955) .nil))) (nat_lit 12693) (nat_lit 44471) (.node (.node (.node (.node .nil (nat_lit 12694) (nat_lit 39957) .nil) (nat_lit 12695) (nat_lit 40027) .nil) (nat_lit 12696) (nat_lit 39959) (.node (.node .nil (nat_lit 12697) (nat_lit 60005) .nil) (nat_lit 12698) (nat_lit 40115) .nil)) (nat_lit 12699) (nat_lit 39987) (.node (.node (.node .nil (nat_lit 12700) (nat_lit 39939) .nil) (nat_lit 12701) (nat_lit 45651) .nil) (nat_lit 12702) (nat_lit 44641) (.node .nil (nat_lit 12703) (nat_lit 40309) .nil))))) (nat_lit 12800) (nat_lit 360658067521617) (.node (.node (.node (.node (.node (.node .nil (nat_lit 12801) (nat_lit 360658075910225) .nil) (nat_lit 12802) (nat_lit 360658080104529) .nil) (nat_lit 12803) (nat_lit 360658088493137) (.node (.node .nil (nat_lit 12804) (nat_lit 360658092687441) .nil) (nat_lit 12805) (nat_lit 360658096881745) .nil)) (nat_lit 12806) (nat_lit 360658105270353) (.node (.node (.node .nil (nat_lit 12807) (nat_lit 360658113658961) .nil) (nat_lit 12808) (nat_lit 360658117853265) .nil) (nat_lit 12809) (nat_lit 360658126241873) (.node (.node .nil (nat_lit 12810) (nat_lit 360658130436177) .nil) (nat_lit 12811) (nat_lit 360658134630481) .nil))) (nat_lit 12812) (nat_lit 360658138824785) (.node (.node (.node (.node .nil (nat_lit 12813) (nat_lit 360658143019089) .nil) (nat_lit 12814) (nat_lit 756355640858201030737) .nil) (nat_lit 12815) (nat_lit 756355640858209419345) (.node (.node .nil (nat_lit 12816) (nat_lit 756355640858213613649) .nil) (nat_lit 12817) (nat_lit 756355640858222002257) .nil)) (nat_lit 12818) (nat_lit 756355640858226196561) (.node (.node (.node .nil (nat_lit 12819) (nat_lit 756355640858230390865) .nil) (nat_lit 12820) (nat_lit 756355640858238779473) .nil) (nat_lit 12821) (nat_lit 756355640858247168081) (.node .nil (nat_lit 12822) (nat_lit 756355640858251362385) .nil)))) (nat_lit 12823) (nat_lit 756355640858259750993) (.node (.node (.node (.node (.node .nil (nat_lit 12824) (nat_lit 756355640858263945297) .nil) (nat_lit 12825) (nat_lit 756355640858268139601) .nil) (nat_lit 12826) (nat_lit 756355640858272333905) (.node (.node .nil (nat_lit 12827) (nat_lit 756355640858276528209) .nil) (nat_lit 12828) (nat_lit 756355755207460651089) .nil)) (nat_lit 12829) (nat_lit 6976155471406054941113926046773829173329) (.node (.node (.node .nil (nat_lit 12830) (nat_lit 3326487790343714115545746097832017) .nil) (nat_lit 12832) (nat_lit 360723565772881) .nil) (nat_lit 12833) (nat_lit 360724152975441) (.node .nil (nat_lit 12834) (nat_lit 360723603521617) .nil))) (nat_lit 12835) (nat_lit 360733074260049) (.node (.node (.node (.node .nil (nat_lit 12836) (nat_lit 360724186529873) .nil) (nat_lit 12837) (nat_lit 360727244177489) .nil) (nat_lit 12838) (nat_lit 360723578355793) (.node (.node .nil (nat_lit 12839) (nat_lit 360727235788881) .nil) (nat_lit 12840) (nat_lit 360723955843153) .nil)) (nat_lit 12841) (nat_lit 360729207111761) (.node (.node (.node .nil (nat_lit 12842) (nat_lit 360750442872913) .nil) (nat_lit 12843) (nat_lit 360760521785425) .nil) (nat_lit 12844) (nat_lit 360755996131409) (.node .nil (nat_lit 12845) (nat_lit 360750577090641) .nil)))))

def decT010101 : Tree :=
  .node (.node (.node (.node (.node (.node (.node .nil (nat_lit 12847) (nat_lit 360733359472721) .nil) (nat_lit 12848) (nat_lit 360749222330449) .nil) (nat_lit 12849) (nat_lit 360751659221073) (.node (.node .nil (nat_lit 12850) (nat_lit 360750447067217) .nil) (nat_lit 12851) (nat_lit 360769996718161) .nil)) (nat_lit 12852) (nat_lit 360730062749777) (.node (.node (.node .nil (nat_lit 12853) (nat_lit 360762727989329) .nil) (nat_lit 12854) (nat_lit 360790813048913) .nil) (nat_lit 12855) (nat_lit 360770126741585) (.node (.node .nil (nat_lit 12856) (nat_lit 360728615714897) .nil) (nat_lit 12857) (nat_lit 360724517879889) .nil))) (nat_lit 12858) (nat_lit 360730528317521) (.node (.node (.node (.node .nil (nat_lit 12859) (nat_lit 360737952235601) .nil) (nat_lit 12860) (nat_lit 360767467552849) .nil) (nat_lit 12861) (nat_lit 360724643709009) (.node (.node .nil (nat_lit 12862) (nat_lit 360790972432465) .nil) (nat_lit 12863) (nat_lit 360729286803537) .nil)) (nat_lit 12864) (nat_lit 360770193850449) (.node (.node (.node .nil (nat_lit 12865) (nat_lit 360724710817873) .nil) (nat_lit 12866) (nat_lit 360779308073041) .nil) (nat_lit 12867) (nat_lit 360779345821777) (.node .nil (nat_lit 12868) (nat_lit 43679) .nil)))) (nat_lit 12869) (nat_lit 48377) (.node (.node (.node (.node (.node .nil (nat_lit 12870) (nat_lit 51983) .nil) (nat_lit 12871) (nat_lit 63263) .nil) (nat_lit 12880) (nat_lit 606930770854049) (.node (.node .nil (nat_lit 12881) (nat_lit 205520997) .nil) (nat_lit 12882) (nat_lit 209715301) .nil)) (nat_lit 12883) (nat_lit 213909605) (.node (.node (.node .nil (nat_lit 12884) (nat_lit 218103909) .nil) (nat_lit 12885) (nat_lit 222298213) .nil) (nat_lit 12886) (nat_lit 226492517) (.node .nil (nat_lit 12887) (nat_lit 230686821) .nil))) (nat_lit 12888) (nat_lit 234881125) (.node (.node (.node (.node .nil (nat_lit 12889) (nat_lit 239075429) .nil) (nat_lit 12890) (nat_lit 201326695) .nil) (nat_lit 12891) (nat_lit 205520999) (.node (.node .nil (nat_lit 12892) (nat_lit 209715303) .nil) (nat_lit 12893) (nat_lit 213909607) .nil)) (nat_lit 12894) (nat_lit 218103911) (.node (.node (.node .nil (nat_lit 12895) (nat_lit 222298215) .nil) (nat_lit 12896) (nat_lit 8705) .nil) (nat_lit 12897) (nat_lit 8709) (.node .nil (nat_lit 12898) (nat_lit 8711) .nil))))) (nat_lit 12899) (nat_lit 8715) (.node (.node (.node (.node (.node (.node .nil (nat_lit 12900) (nat_lit 8717) .nil) (nat_lit 12901) (nat_lit 8719) .nil) (nat_lit 12902) (nat_lit 8723) (.node (.node .nil (nat_lit 12903) (nat_lit 8727) .nil) (nat_lit 12904) (nat_lit 8729) .nil)) (nat_lit 12905) (nat_lit 8733) (.node (.node (.node .nil (nat_lit 12906) (nat_lit 8735) .nil) (nat_lit 12907) (nat_lit 8737) .nil) (nat_lit 12908) (nat_lit 8739) (.node .nil (nat_lit 12909) (nat_lit 8741) .nil))) (nat_lit 12910) (nat_lit 18660467201) (.node (.node (.node (.node .nil (nat_lit 12911) (nat_lit 18660467205) .nil) (nat_lit 12912) (nat_lit 18660467207) .nil) (nat_lit 12913) (nat_lit 18660467211) (.node (.node .nil (nat_lit 12914) (nat_lit 18660467213) .nil) (nat_lit 12915) (nat_lit 18660467215) .nil)) (nat_lit 12916) (nat_lit 18660467219) (.node (.node (.node .nil (nat_lit 12917) (nat_lit 18660467223) .nil) (nat_lit 12918) (nat_lit 18660467225) .nil) (nat_lit 12919) (nat_lit 18660467229) (.node .nil (nat_lit 12920) (nat_lit 18660467231) .nil)))) (nat_lit 12921) (nat_lit 18660467233) (.node (.node (.node (.node (.node .nil (nat_lit 12922) (nat_lit 18660467235) .nil) (nat_lit 12923) (nat_lit 18660467237) .nil) (nat_lit 12924) (nat_lit 172421916376986970497778459165) (.node (.node .nil (nat_lit 12925) (nat_lit 82420090898706847506969) .nil) (nat_lit 12926) (nat_lit 18714993175) .nil)) (nat_lit 12928) (nat_lit 39937) (.node (.node (.node .nil (nat_lit 12929) (nat_lit 40217) .nil) (nat_lit 12930) (nat_lit 39955) .nil) (nat_lit 12931) (nat_lit 44471) (.node .nil (nat_lit 12932) (nat_lit 40233) .nil))) (nat_lit 12933) (nat_lit 41691) (.node (.node (.node (.node .nil (nat_lit 12934) (nat_lit 39943) .nil) (nat_lit 12935) (nat_lit 41687) .nil) (nat_lit 12936) (nat_lit 40123) (.node (.node .nil (nat_lit 12937) (nat_lit 42627) .nil) (nat_lit 12938) (nat_lit 52753) .nil)) (nat_lit 12939) (nat_lit 57559) (.node (.node (.node .nil (nat_lit 12940) (nat_lit 55401) .nil) (nat_lit 12941) (nat_lit 52817) .nil) (nat_lit 12942) (nat_lit 74659) (.node .nil (nat_lit 12943) (nat_lit 44607) .nil)))))

def decT010110 : Tree :=
  .node (.node (.node (.node (.node (.node (.node .nil (nat_lit 12945) (nat_lit 53333) .nil) (nat_lit 12946) (nat_lit 52755) .nil) (nat_lit 12947) (nat_lit 62077) (.node (.node .nil (nat_lit 12948) (nat_lit 43035) .nil) (nat_lit 12949) (nat_lit 58611) .nil)) (nat_lit 12950) (nat_lit 72003) (.node (.node (.node .nil (nat_lit 12951) (nat_lit 62139) .nil) (nat_lit 12952) (nat_lit 42345) .nil) (nat_lit 12953) (nat_lit 62385) (.node (.node .nil (nat_lit 12954) (nat_lit 60015) .nil) (nat_lit 12955) (nat_lit 45799) .nil))) (nat_lit 12956) (nat_lit 73939) (.node (.node (.node (.node .nil (nat_lit 12957) (nat_lit 41557) .nil) (nat_lit 12958) (nat_lit 42721) .nil) (nat_lit 12959) (nat_lit 55761) (.node (.node .nil (nat_lit 12960) (nat_lit 77835) .nil) (nat_lit 12961) (nat_lit 40483) .nil)) (nat_lit 12962) (nat_lit 41779) (.node (.node (.node .nil (nat_lit 12963) (nat_lit 54983) .nil) (nat_lit 12964) (nat_lit 39957) .nil) (nat_lit 12965) (nat_lit 40027) (.node .nil (nat_lit 12966) (nat_lit 39959) .nil)))) (nat_lit 12967) (nat_lit 48077) (.node (.node (.node (.node (.node .nil (nat_lit 12968) (nat_lit 42983) .nil) (nat_lit 12969) (nat_lit 42615) .nil) (nat_lit 12970) (nat_lit 46895) (.node (.node .nil (nat_lit 12971) (nat_lit 46797) .nil) (nat_lit 12972) (nat_lit 60871) .nil)) (nat_lit 12973) (nat_lit 40451) (.node (.node (.node .nil (nat_lit 12974) (nat_lit 72079) .nil) (nat_lit 12975) (nat_lit 42665) .nil) (nat_lit 12976) (nat_lit 45625) (.node .nil (nat_lit 12977) (nat_lit 226492519) .nil))) (nat_lit 12978) (nat_lit 230686823) (.node (.node (.node (.node .nil (nat_lit 12979) (nat_lit 234881127) .nil) (nat_lit 12980) (nat_lit 239075431) .nil) (nat_lit 12981) (nat_lit 201326697) (.node (.node .nil (nat_lit 12982) (nat_lit 205521001) .nil) (nat_lit 12983) (nat_lit 209715305) .nil)) (nat_lit 12984) (nat_lit 213909609) (.node (.node (.node .nil (nat_lit 12985) (nat_lit 218103913) .nil) (nat_lit 12986) (nat_lit 222298217) .nil) (nat_lit 12987) (nat_lit 226492521) (.node .nil (nat_lit 12988) (nat_lit 230686825) .nil))))) (nat_lit 12989) (nat_lit 234881129) (.node (.node (.node (.node (.node (.node .nil (nat_lit 12990) (nat_lit 239075433) .nil) (nat_lit 12991) (nat_lit 201326699) .nil) (nat_lit 12992) (nat_lit 110628962403) (.node (.node .nil (nat_lit 12993) (nat_lit 110628962405) .nil) (nat_lit 12994) (nat_lit 110628962407) .nil)) (nat_lit 12995) (nat_lit 110628962409) (.node (.node (.node .nil (nat_lit 12996) (nat_lit 110628962411) .nil) (nat_lit 12997) (nat_lit 110628962413) .nil) (nat_lit 12998) (nat_lit 110628962415) (.node (.node .nil (nat_lit 12999) (nat_lit 110628962417) .nil) (nat_lit 13000) (nat_lit 110628962419) .nil))) (nat_lit 13001) (nat_lit 232005749755084899) (.node (.node (.node (.node .nil (nat_lit 13002) (nat_lit 232005749759279203) .nil) (nat_lit 13003) (nat_lit 232005749763473507) .nil) (nat_lit 13004) (nat_lit 432013457) (.node (.node .nil (nat_lit 13005) (nat_lit 905998059438283) .nil) (nat_lit 13006) (nat_lit 360710347) .nil)) (nat_lit 13007) (nat_lit 598134677831833) (.node (.node (.node .nil (nat_lit 13008) (nat_lit 24901) .nil) (nat_lit 13009) (nat_lit 24905) .nil) (nat_lit 13010) (nat_lit 24909) (.node .nil (nat_lit 13011) (nat_lit 24913) .nil)))) (nat_lit 13012) (nat_lit 24917) (.node (.node (.node (.node (.node .nil (nat_lit 13013) (nat_lit 24919) .nil) (nat_lit 13014) (nat_lit 24923) .nil) (nat_lit 13015) (nat_lit 24927) (.node (.node .nil (nat_lit 13016) (nat_lit 24931) .nil) (nat_lit 13017) (nat_lit 24935) .nil)) (nat_lit 13018) (nat_lit 24939) (.node (.node (.node .nil (nat_lit 13019) (nat_lit 24943) .nil) (nat_lit 13020) (nat_lit 24947) .nil) (nat_lit 13021) (nat_lit 24951) (.node .nil (nat_lit 13022) (nat_lit 24955) .nil))) (nat_lit 13023) (nat_lit 24959) (.node (.node (.node (.node .nil (nat_lit 13024) (nat_lit 24963) .nil) (nat_lit 13025) (nat_lit 24969) .nil) (nat_lit 13026) (nat_lit 24973) (.node (.node .nil (nat_lit 13027) (nat_lit 24977) .nil) (nat_lit 13028) (nat_lit 24981) .nil)) (nat_lit 13029) (nat_lit 24983) (.node (.node (.node .nil (nat_lit 13030) (nat_lit 24985) .nil) (nat_lit 13031) (nat_lit 24987) .nil) (nat_lit 13032) (nat_lit 24989) (.node .nil (nat_lit 13033) (nat_lit 24991) .nil)))))

def decT010111 : Tree :=
  .node (.node (.node (.node (.node (.node (.node .nil (nat_lit 13035) (nat_lit 25003) .nil) (nat_lit 13036) (nat_lit 25009) .nil) (nat_lit 13037) (nat_lit 25015) (.node (.node .nil (nat_lit 13038) (nat_lit 25021) .nil) (nat_lit 13039) (nat_lit 25023) .nil)) (nat_lit 13040) (nat_lit 25025) (.node (.node (.node .nil (nat_lit 13041) (nat_lit 25027) .nil) (nat_lit 13042) (nat_lit 25029) .nil) (nat_lit 13043) (nat_lit 25033) (.node (.node .nil (nat_lit 13044) (nat_lit 25037) .nil) (nat_lit 13045) (nat_lit 25041) .nil))) (nat_lit 13046) (nat_lit 25043) (.node (.node (.node (.node .nil (nat_lit 13047) (nat_lit 25045) .nil) (nat_lit 13048) (nat_lit 25047) .nil) (nat_lit 13049) (nat_lit 25049) (.node (.node .nil (nat_lit 13050) (nat_lit 25051) .nil) (nat_lit 13051) (nat_lit 25055) .nil)) (nat_lit 13052) (nat_lit 25057) (.node (.node (.node .nil (nat_lit 13053) (nat_lit 25059) .nil) (nat_lit 13054) (nat_lit 25061) .nil) (nat_lit 13055) (nat_lit 90781556169) (.node .nil (nat_lit 13056) (nat_lit 230363050295543795310917) .nil)))) (nat_lit 13057) (nat_lit 229643626933621603983685) (.node (.node (.node (.node (.node .nil (nat_lit 13058) (nat_lit 229662073721675812200773) .nil) (nat_lit 13059) (nat_lit 110153525513707845) .nil) (nat_lit 13060) (nat_lit 229920328358609903706441) (.node (.node .nil (nat_lit 13061) (nat_lit 109784089569026377) .nil) (nat_lit 13062) (nat_lit 110223893909758285) .nil)) (nat_lit 13063) (nat_lit 483145017279627630490402447697) (.node (.node (.node .nil (nat_lit 13064) (nat_lit 231322280274893337551185) .nil) (nat_lit 13065) (nat_lit 109713720824848725) .nil) (nat_lit 13066) (nat_lit 110056768490463573) (.node .nil (nat_lit 13067) (nat_lit 110144729051586903) .nil))) (nat_lit 13068) (nat_lit 230363049794166593708375) (.node (.node (.node (.node .nil (nat_lit 13069) (nat_lit 231322280829047135035735) .nil) (nat_lit 13070) (nat_lit 110223894194970969) .nil) (nat_lit 13071) (nat_lit 110039176266670425) (.node (.node .nil (nat_lit 13072) (nat_lit 52261052765) .nil) (nat_lit 13073) (nat_lit 110303058889564509) .nil)) (nat_lit 13074) (nat_lit 231322280829047101481307) (.node (.node (.node .nil (nat_lit 13075) (nat_lit 231322280459611219714397) .nil) (nat_lit 13076) (nat_lit 52533682523) .nil) (nat_lit 13077) (nat_lit 484034786332375868958815838555) (.node .nil (nat_lit 13078) (nat_lit 1015986944972451128276767873100177755) .nil))))) (nat_lit 13079) (nat_lit 483106330601936113105538933083) (.node (.node (.node (.node (.node (.node .nil (nat_lit 13080) (nat_lit 110056768410771809) .nil) (nat_lit 13081) (nat_lit 484769812621959431277070279009) .nil) (nat_lit 13082) (nat_lit 484537698200510319162642424159) (.node (.node .nil (nat_lit 13083) (nat_lit 230455284015912460509535) .nil) (nat_lit 13084) (nat_lit 109713720862597475) .nil)) (nat_lit 13085) (nat_lit 109863254372671847) (.node (.node (.node .nil (nat_lit 13086) (nat_lit 110030380211396967) .nil) (nat_lit 13087) (nat_lit 231008685660824278163819) .nil) (nat_lit 13088) (nat_lit 484034786682864155892903862635) (.node .nil (nat_lit 13089) (nat_lit 229920328358610033729903) .nil))) (nat_lit 13090) (nat_lit 109784089569026423) (.node (.node (.node (.node .nil (nat_lit 13091) (nat_lit 109845662220181879) .nil) (nat_lit 13092) (nat_lit 109713720862597505) .nil) (nat_lit 13093) (nat_lit 52307190159) (.node (.node .nil (nat_lit 13094) (nat_lit 52525293971) .nil) (nat_lit 13095) (nat_lit 52558848401) .nil)) (nat_lit 13096) (nat_lit 52403659157) (.node (.node (.node .nil (nat_lit 13097) (nat_lit 109845662018855325) .nil) (nat_lit 13098) (nat_lit 109810477516743071) .nil) (nat_lit 13099) (nat_lit 483106331487379371246823170467) (.node .nil (nat_lit 13100) (nat_lit 109810477885841827) .nil)))) (nat_lit 13101) (nat_lit 231008686197386321617313) (.node (.node (.node (.node (.node .nil (nat_lit 13102) (nat_lit 484460327612137743160419836329) .nil) (nat_lit 13103) (nat_lit 110153525190746537) .nil) (nat_lit 13104) (nat_lit 52290412969) (.node (.node .nil (nat_lit 13105) (nat_lit 52525293991) .nil) (nat_lit 13106) (nat_lit 483145016228163728462252630443) .nil)) (nat_lit 13107) (nat_lit 230363050295543602373035) (.node (.node (.node .nil (nat_lit 13108) (nat_lit 484460327003395171135957000621) .nil) (nat_lit 13109) (nat_lit 110223894178193835) .nil) (nat_lit 13110) (nat_lit 484460328571368487769929179569) (.node .nil (nat_lit 13111) (nat_lit 52332356021) .nil))) (nat_lit 13112) (nat_lit 109933622982631861) (.node (.node (.node (.node .nil (nat_lit 13113) (nat_lit 109810477814538673) .nil) (nat_lit 13114) (nat_lit 109713720824848821) .nil) (nat_lit 13115) (nat_lit 109704924769575349) (.node (.node .nil (nat_lit 13116) (nat_lit 109766497420730803) .nil) (nat_lit 13117) (nat_lit 230363050216378769367483) .nil)) (nat_lit 13118) (nat_lit 109845662186627513) (.node (.node (.node .nil (nat_lit 13119) (nat_lit 52558848439) .nil) (nat_lit 13120) (nat_lit 109854458313204155) .nil) (nat_lit 13121) (nat_lit 110153525513707959) (.node .nil (nat_lit 13122) (nat_lit 110223894257885623) .nil)))))

def decT011000 : Tree :=
  .node (.node (.node (.node (.node (.node (.node .nil (nat_lit 13124) (nat_lit 110153525144609213) .nil) (nat_lit 13125) (nat_lit 109907234670010813) .nil) (nat_lit 13126) (nat_lit 109625759861072317) (.node (.node .nil (nat_lit 13127) (nat_lit 484769813193808136922294411709) .nil) (nat_lit 13128) (nat_lit 231156260158771768091071) .nil)) (nat_lit 13129) (nat_lit 52521099711) (.node (.node (.node .nil (nat_lit 13130) (nat_lit 484460328571368637303758021055) .nil) (nat_lit 13131) (nat_lit 52261052867) .nil) (nat_lit 13132) (nat_lit 231156259833316313686467) (.node (.node .nil (nat_lit 13133) (nat_lit 231008685880726972817859) .nil) (nat_lit 13134) (nat_lit 109854458350952905) .nil))) (nat_lit 13135) (nat_lit 110153525513707977) (.node (.node (.node (.node .nil (nat_lit 13136) (nat_lit 110223893880398285) .nil) (nat_lit 13137) (nat_lit 231008685880726733742549) .nil) (nat_lit 13138) (nat_lit 52516905429) (.node (.node .nil (nat_lit 13139) (nat_lit 110303058927313367) .nil) (nat_lit 13140) (nat_lit 231008686003872275128791) .nil)) (nat_lit 13141) (nat_lit 52479156697) (.node (.node (.node .nil (nat_lit 13142) (nat_lit 484769812216130850549269553625) .nil) (nat_lit 13143) (nat_lit 109845662018855391) .nil) (nat_lit 13144) (nat_lit 121035030625) (.node .nil (nat_lit 13145) (nat_lit 121035030627) .nil)))) (nat_lit 13146) (nat_lit 121035030629) (.node (.node (.node (.node (.node .nil (nat_lit 13147) (nat_lit 121035030631) .nil) (nat_lit 13148) (nat_lit 121035030633) .nil) (nat_lit 13149) (nat_lit 121035030635) (.node (.node .nil (nat_lit 13150) (nat_lit 121035030637) .nil) (nat_lit 13151) (nat_lit 121035030639) .nil)) (nat_lit 13152) (nat_lit 121035030641) (.node (.node (.node .nil (nat_lit 13153) (nat_lit 121035030643) .nil) (nat_lit 13154) (nat_lit 253828856543182947) .nil) (nat_lit 13155) (nat_lit 253828856547377251) (.node .nil (nat_lit 13156) (nat_lit 253828856551571555) .nil))) (nat_lit 13157) (nat_lit 253828856555765859) (.node (.node (.node (.node .nil (nat_lit 13158) (nat_lit 253828856559960163) .nil) (nat_lit 13159) (nat_lit 253828856564154467) .nil) (nat_lit 13160) (nat_lit 253828856568348771) (.node (.node .nil (nat_lit 13161) (nat_lit 253828856572543075) .nil) (nat_lit 13162) (nat_lit 253828856576737379) .nil)) (nat_lit 13163) (nat_lit 253828856580931683) (.node (.node (.node .nil (nat_lit 13164) (nat_lit 253828856543182949) .nil) (nat_lit 13165) (nat_lit 253828856547377253) .nil) (nat_lit 13166) (nat_lit 253828856551571557) (.node .nil (nat_lit 13167) (nat_lit 253828856555765861) .nil))))) (nat_lit 13168) (nat_lit 253828856559960165) (.node (.node (.node (.node (.node (.node .nil (nat_lit 13169) (nat_lit 853221358698705) .nil) (nat_lit 13170) (nat_lit 406847689) .nil) (nat_lit 13171) (nat_lit 356515971) (.node (.node .nil (nat_lit 13172) (nat_lit 1002755011379397) .nil) (nat_lit 13173) (nat_lit 360710367) .nil)) (nat_lit 13174) (nat_lit 415236321) (.node (.node (.node .nil (nat_lit 13175) (nat_lit 457179337) .nil) (nat_lit 13176) (nat_lit 1565705015132361) .nil) (nat_lit 13177) (nat_lit 1574501108154569) (.node (.node .nil (nat_lit 13178) (nat_lit 356515987) .nil) (nat_lit 13179) (nat_lit 105293855975) .nil))) (nat_lit 13180) (nat_lit 90781568091) (.node (.node (.node (.node .nil (nat_lit 13181) (nat_lit 115305656911) .nil) (nat_lit 13182) (nat_lit 116748504093) .nil) (nat_lit 13183) (nat_lit 572550220680782831210581) (.node (.node .nil (nat_lit 13184) (nat_lit 272629985) .nil) (nat_lit 13185) (nat_lit 272629981) .nil)) (nat_lit 13186) (nat_lit 272631673) (.node (.node (.node .nil (nat_lit 13187) (nat_lit 272629979) .nil) (nat_lit 13188) (nat_lit 272629975) .nil) (nat_lit 13189) (nat_lit 276824215) (.node .nil (nat_lit 13190) (nat_lit 276824219) .nil)))) (nat_lit 13191) (nat_lit 276824207) (.node (.node (.node (.node (.node .nil (nat_lit 13192) (nat_lit 949978453246151) .nil) (nat_lit 13193) (nat_lit 1992249213182069965015) .nil) (nat_lit 13194) (nat_lit 293601505) (.node (.node .nil (nat_lit 13195) (nat_lit 293601501) .nil) (nat_lit 13196) (nat_lit 293603193) .nil)) (nat_lit 13197) (nat_lit 432015225) (.node (.node (.node .nil (nat_lit 13198) (nat_lit 432013531) .nil) (nat_lit 13199) (nat_lit 432013527) .nil) (nat_lit 13200) (nat_lit 511705233) (.node .nil (nat_lit 13201) (nat_lit 1073123650699479) .nil))) (nat_lit 13202) (nat_lit 1073123650699419) (.node (.node (.node (.node .nil (nat_lit 13203) (nat_lit 1073123650699407) .nil) (nat_lit 13204) (nat_lit 1073123650699433) .nil) (nat_lit 13205) (nat_lit 35513173881) (.node (.node .nil (nat_lit 13206) (nat_lit 35513172187) .nil) (nat_lit 13207) (nat_lit 35513172169) .nil)) (nat_lit 13208) (nat_lit 35513172183) (.node (.node (.node .nil (nat_lit 13209) (nat_lit 457179341) .nil) (nat_lit 13210) (nat_lit 457179357) .nil) (nat_lit 13211) (nat_lit 457181049) (.node .nil (nat_lit 13212) (nat_lit 457179355) .nil)))))

def decT011001 : Tree :=
  .node (.node (.node (.node (.node (.node (.node .nil (nat_lit 13214) (nat_lit 457179351) .nil) (nat_lit 13215) (nat_lit 1565705015132379) .nil) (nat_lit 13216) (nat_lit 1565705015132359) (.node (.node .nil (nat_lit 13217) (nat_lit 746586331) .nil) (nat_lit 13218) (nat_lit 1565705015132375) .nil)) (nat_lit 13219) (nat_lit 1574501108154587) (.node (.node (.node .nil (nat_lit 13220) (nat_lit 1574501108154567) .nil) (nat_lit 13221) (nat_lit 750780635) .nil) (nat_lit 13222) (nat_lit 1574501108154583) (.node (.node .nil (nat_lit 13223) (nat_lit 1011587292856539) .nil) (nat_lit 13224) (nat_lit 3283521456707593044187) .nil))) (nat_lit 13225) (nat_lit 406847649) (.node (.node (.node (.node .nil (nat_lit 13226) (nat_lit 853221358698711) .nil) (nat_lit 13227) (nat_lit 853221358698651) .nil) (nat_lit 13228) (nat_lit 853221358698639) (.node (.node .nil (nat_lit 13229) (nat_lit 879609709068517) .nil) (nat_lit 13230) (nat_lit 4449007964024758088465645797) .nil)) (nat_lit 13231) (nat_lit 14441080086807953366608531381289189) (.node (.node (.node .nil (nat_lit 13232) (nat_lit 482345185) .nil) (nat_lit 13233) (nat_lit 482345181) .nil) (nat_lit 13234) (nat_lit 482346873) (.node .nil (nat_lit 13235) (nat_lit 482345179) .nil)))) (nat_lit 13236) (nat_lit 360710369) (.node (.node (.node (.node (.node .nil (nat_lit 13237) (nat_lit 360710365) .nil) (nat_lit 13238) (nat_lit 360712057) .nil) (nat_lit 13239) (nat_lit 360710363) (.node (.node .nil (nat_lit 13240) (nat_lit 360710359) .nil) (nat_lit 13241) (nat_lit 360710299) .nil)) (nat_lit 13242) (nat_lit 364904673) (.node (.node (.node .nil (nat_lit 13243) (nat_lit 364904669) .nil) (nat_lit 13244) (nat_lit 364906361) .nil) (nat_lit 13245) (nat_lit 364904667) (.node .nil (nat_lit 13246) (nat_lit 364904663) .nil))) (nat_lit 13247) (nat_lit 364904603) (.node (.node (.node (.node .nil (nat_lit 13248) (nat_lit 3930063063) .nil) (nat_lit 13249) (nat_lit 3930063003) .nil) (nat_lit 13250) (nat_lit 848551186164971733187) (.node (.node .nil (nat_lit 13251) (nat_lit 473956485) .nil) (nat_lit 13252) (nat_lit 415236295) .nil)) (nat_lit 13253) (nat_lit 419430599) (.node (.node (.node .nil (nat_lit 13254) (nat_lit 1900015580810632495239) .nil) (nat_lit 13255) (nat_lit 404620744589447) .nil) (nat_lit 13256) (nat_lit 276824265) (.node .nil (nat_lit 13257) (nat_lit 507510927) .nil))))) (nat_lit 13258) (nat_lit 406847697) (.node (.node (.node (.node (.node (.node .nil (nat_lit 13259) (nat_lit 335544465) .nil) (nat_lit 13260) (nat_lit 461373651) .nil) (nat_lit 13261) (nat_lit 314572951) (.node (.node .nil (nat_lit 13262) (nat_lit 322961559) .nil) (nat_lit 13263) (nat_lit 486539479) .nil)) (nat_lit 13264) (nat_lit 457179353) (.node (.node (.node .nil (nat_lit 13265) (nat_lit 461373657) .nil) (nat_lit 13266) (nat_lit 905998046855385) .nil) (nat_lit 13267) (nat_lit 503316697) (.node .nil (nat_lit 13268) (nat_lit 411042011) .nil))) (nat_lit 13269) (nat_lit 949978486800603) (.node (.node (.node (.node .nil (nat_lit 13270) (nat_lit 949978511966427) .nil) (nat_lit 13271) (nat_lit 301990049) .nil) (nat_lit 13272) (nat_lit 848551186164971733217) (.node (.node .nil (nat_lit 13273) (nat_lit 677299498254497) .nil) (nat_lit 13274) (nat_lit 343933089) .nil)) (nat_lit 13275) (nat_lit 478150887) (.node (.node (.node .nil (nat_lit 13276) (nat_lit 494928039) .nil) (nat_lit 13277) (nat_lit 411041967) .nil) (nat_lit 13278) (nat_lit 958810734723245) (.node .nil (nat_lit 13279) (nat_lit 958810734723203) .nil)))) (nat_lit 13280) (nat_lit 109408419939) (.node (.node (.node (.node (.node .nil (nat_lit 13281) (nat_lit 109408419941) .nil) (nat_lit 13282) (nat_lit 109408419943) .nil) (nat_lit 13283) (nat_lit 109408419945) (.node (.node .nil (nat_lit 13284) (nat_lit 109408419947) .nil) (nat_lit 13285) (nat_lit 109408419949) .nil)) (nat_lit 13286) (nat_lit 109408419951) (.node (.node (.node .nil (nat_lit 13287) (nat_lit 109408419953) .nil) (nat_lit 13288) (nat_lit 109408419955) .nil) (nat_lit 13289) (nat_lit 229446086685622371) (.node .nil (nat_lit 13290) (nat_lit 229446086689816675) .nil))) (nat_lit 13291) (nat_lit 229446086694010979) (.node (.node (.node (.node .nil (nat_lit 13292) (nat_lit 229446086698205283) .nil) (nat_lit 13293) (nat_lit 229446086702399587) .nil) (nat_lit 13294) (nat_lit 229446086706593891) (.node (.node .nil (nat_lit 13295) (nat_lit 229446086710788195) .nil) (nat_lit 13296) (nat_lit 229446086714982499) .nil)) (nat_lit 13297) (nat_lit 229446086719176803) (.node (.node (.node .nil (nat_lit 13298) (nat_lit 229446086723371107) .nil) (nat_lit 13299) (nat_lit 229446086685622373) .nil) (nat_lit 13300) (nat_lit 229446086689816677) (.node .nil (nat_lit 13301) (nat_lit 229446086694010981) .nil)))))

def decT011010 : Tree :=
  .node (.node (.node (.node (.node (.node (.node .nil (nat_lit 13303) (nat_lit 229446086702399589) .nil) (nat_lit 13304) (nat_lit 229446086706593893) .nil) (nat_lit 13305) (nat_lit 229446086710788197) (.node (.node .nil (nat_lit 13306) (nat_lit 229446086714982501) .nil) (nat_lit 13307) (nat_lit 229446086719176805) .nil)) (nat_lit 13308) (nat_lit 229446086723371109) (.node (.node (.node .nil (nat_lit 13309) (nat_lit 229446086685622375) .nil) (nat_lit 13310) (nat_lit 229446086689816679) .nil) (nat_lit 13311) (nat_lit 949978453246159) (.node (.node .nil (nat_lit 42652) (nat_lit 2197) .nil) (nat_lit 42653) (nat_lit 2201) .nil))) (nat_lit 42864) (nat_lit 85727) (.node (.node (.node (.node .nil (nat_lit 43000) (nat_lit 589) .nil) (nat_lit 43001) (nat_lit 679) .nil) (nat_lit 43868) (nat_lit 85583) (.node (.node .nil (nat_lit 43869) (nat_lit 87663) .nil) (nat_lit 43870) (nat_lit 1239) .nil)) (nat_lit 43871) (nat_lit 87717) (.node (.node (.node .nil (nat_lit 63744) (nat_lit 71824) .nil) (nat_lit 63745) (nat_lit 52712) .nil) (nat_lit 63746) (nat_lit 73108) (.node .nil (nat_lit 63747) (nat_lit 72080) .nil)))) (nat_lit 63748) (nat_lit 56738) (.node (.node (.node (.node (.node .nil (nat_lit 63749) (nat_lit 40036) .nil) (nat_lit 63750) (nat_lit 42954) .nil) (nat_lit 63751) (nat_lit 81720) (.node (.node .nil (nat_lit 63752) (nat_lit 81720) .nil) (nat_lit 63753) (nat_lit 45730) .nil)) (nat_lit 63754) (nat_lit 74658) (.node (.node (.node .nil (nat_lit 63755) (nat_lit 43790) .nil) (nat_lit 63756) (nat_lit 45712) .nil) (nat_lit 63757) (nat_lit 50156) (.node .nil (nat_lit 63758) (nat_lit 60626) .nil))) (nat_lit 63759) (nat_lit 65290) (.node (.node (.node (.node .nil (nat_lit 63760) (nat_lit 68734) .nil) (nat_lit 63761) (nat_lit 69492) .nil) (nat_lit 63762) (nat_lit 70128) (.node (.node .nil (nat_lit 63763) (nat_lit 74014) .nil) (nat_lit 63764) (nat_lit 54276) .nil)) (nat_lit 63765) (nat_lit 55862) (.node (.node (.node .nil (nat_lit 63766) (nat_lit 57778) .nil) (nat_lit 63767) (nat_lit 59324) .nil) (nat_lit 63768) (nat_lit 67706) (.node .nil (nat_lit 63769) (nat_lit 74452) .nil))))) (nat_lit 63770) (nat_lit 78818) (.node (.node (.node (.node (.node (.node .nil (nat_lit 63771) (nat_lit 40196) .nil) (nat_lit 63772) (nat_lit 42730) .nil) (nat_lit 63773) (nat_lit 54792) (.node (.node .nil (nat_lit 63774) (nat_lit 58422) .nil) (nat_lit 63775) (nat_lit 68698) .nil)) (nat_lit 63776) (nat_lit 80956) (.node (.node (.node .nil (nat_lit 63777) (nat_lit 47776) .nil) (nat_lit 63778) (nat_lit 57302) .nil) (nat_lit 63779) (nat_lit 68506) (.node (.node .nil (nat_lit 63780) (nat_lit 70344) .nil) (nat_lit 63781) (nat_lit 50578) .nil))) (nat_lit 63782) (nat_lit 66480) (.node (.node (.node (.node .nil (nat_lit 63783) (nat_lit 69694) .nil) (nat_lit 63784) (nat_lit 48532) .nil) (nat_lit 63785) (nat_lit 52782) (.node (.node .nil (nat_lit 63786) (nat_lit 56020) .nil) (nat_lit 63787) (nat_lit 58872) .nil)) (nat_lit 63788) (nat_lit 74140) (.node (.node (.node .nil (nat_lit 63789) (nat_lit 40716) .nil) (nat_lit 63790) (nat_lit 41838) .nil) (nat_lit 63791) (nat_lit 42428) (.node .nil (nat_lit 63792) (nat_lit 51592) .nil)))) (nat_lit 63793) (nat_lit 54694) (.node (.node (.node (.node (.node .nil (nat_lit 63794) (nat_lit 58400) .nil) (nat_lit 63795) (nat_lit 60878) .nil) (nat_lit 63796) (nat_lit 65538) (.node (.node .nil (nat_lit 63797) (nat_lit 68620) .nil) (nat_lit 63798) (nat_lit 68792) .nil)) (nat_lit 63799) (nat_lit 72670) (.node (.node (.node .nil (nat_lit 63800) (nat_lit 77412) .nil) (nat_lit 63801) (nat_lit 79582) .nil) (nat_lit 63802) (nat_lit 80884) (.node .nil (nat_lit 63803) (nat_lit 61720) .nil))) (nat_lit 63804) (nat_lit 62206) (.node (.node (.node (.node .nil (nat_lit 63805) (nat_lit 64320) .nil) (nat_lit 63806) (nat_lit 67474) .nil) (nat_lit 63807) (nat_lit 75272) (.node (.node .nil (nat_lit 63808) (nat_lit 81150) .nil) (nat_lit 63809) (nat_lit 71084) .nil)) (nat_lit 63810) (nat_lit 45502) (.node (.node (.node .nil (nat_lit 63811) (nat_lit 48648) .nil) (nat_lit 63812) (nat_lit 63680) .nil) (nat_lit 63813) (nat_lit 65788) (.node .nil (nat_lit 63814) (nat_lit 58564) .nil)))))

def decT011011 : Tree :=
  .node (.node (.node (.node (.node (.node (.node .nil (nat_lit 63816) (nat_lit 72068) .nil) (nat_lit 63817) (nat_lit 77294) .nil) (nat_lit 63818) (nat_lit 45488) (.node (.node .nil (nat_lit 63819) (nat_lit 47300) .nil) (nat_lit 63820) (nat_lit 54310) .nil)) (nat_lit 63821) (nat_lit 56244) (.node (.node (.node .nil (nat_lit 63822) (nat_lit 56862) .nil) (nat_lit 63823) (nat_lit 64094) .nil) (nat_lit 63824) (nat_lit 64622) (.node (.node .nil (nat_lit 63825) (nat_lit 76950) .nil) (nat_lit 63826) (nat_lit 42404) .nil))) (nat_lit 63827) (nat_lit 65814) (.node (.node (.node (.node .nil (nat_lit 63828) (nat_lit 41912) .nil) (nat_lit 63829) (nat_lit 41880) .nil) (nat_lit 63830) (nat_lit 62520) (.node (.node .nil (nat_lit 63831) (nat_lit 64380) .nil) (nat_lit 63832) (nat_lit 67554) .nil)) (nat_lit 63833) (nat_lit 77034) (.node (.node (.node .nil (nat_lit 63834) (nat_lit 71424) .nil) (nat_lit 63835) (nat_lit 50590) .nil) (nat_lit 63836) (nat_lit 54276) (.node .nil (nat_lit 63837) (nat_lit 71164) .nil)))) (nat_lit 63838) (nat_lit 40050) (.node (.node (.node (.node (.node .nil (nat_lit 63839) (nat_lit 47054) .nil) (nat_lit 63840) (nat_lit 49188) .nil) (nat_lit 63841) (nat_lit 59150) (.node (.node .nil (nat_lit 63842) (nat_lit 60128) .nil) (nat_lit 63843) (nat_lit 42542) .nil)) (nat_lit 63844) (nat_lit 61942) (.node (.node (.node .nil (nat_lit 63845) (nat_lit 40830) .nil) (nat_lit 63846) (nat_lit 48978) .nil) (nat_lit 63847) (nat_lit 39962) (.node .nil (nat_lit 63848) (nat_lit 55704) .nil))) (nat_lit 63849) (nat_lit 51952) (.node (.node (.node (.node .nil (nat_lit 63850) (nat_lit 64068) .nil) (nat_lit 63851) (nat_lit 42886) .nil) (nat_lit 63852) (nat_lit 45244) (.node (.node .nil (nat_lit 63853) (nat_lit 60930) .nil) (nat_lit 63854) (nat_lit 67730) .nil)) (nat_lit 63855) (nat_lit 70996) (.node (.node (.node .nil (nat_lit 63856) (nat_lit 55156) .nil) (nat_lit 63857) (nat_lit 73568) .nil) (nat_lit 63858) (nat_lit 55568) (.node .nil (nat_lit 63859) (nat_lit 50684) .nil))))) (nat_lit 63860) (nat_lit 67018) (.node (.node (.node (.node (.node (.node .nil (nat_lit 63861) (nat_lit 51008) .nil) (nat_lit 63862) (nat_lit 60106) .nil) (nat_lit 63863) (nat_lit 40284) (.node (.node .nil (nat_lit 63864) (nat_lit 41682) .nil) (nat_lit 63865) (nat_lit 41874) .nil)) (nat_lit 63866) (nat_lit 53506) (.node (.node (.node .nil (nat_lit 63867) (nat_lit 63950) .nil) (nat_lit 63868) (nat_lit 66782) .nil) (nat_lit 63869) (nat_lit 71076) (.node .nil (nat_lit 63870) (nat_lit 74654) .nil))) (nat_lit 63871) (nat_lit 42474) (.node (.node (.node (.node .nil (nat_lit 63872) (nat_lit 43140) .nil) (nat_lit 63873) (nat_lit 45798) .nil) (nat_lit 63874) (nat_lit 48600) (.node (.node .nil (nat_lit 63875) (nat_lit 52106) .nil) (nat_lit 63876) (nat_lit 57340) .nil)) (nat_lit 63877) (nat_lit 62036) (.node (.node (.node .nil (nat_lit 63878) (nat_lit 76634) .nil) (nat_lit 63879) (nat_lit 79060) .nil) (nat_lit 63880) (nat_lit 81198) (.node .nil (nat_lit 63881) (nat_lit 81308) .nil)))) (nat_lit 63882) (nat_lit 42294) (.node (.node (.node (.node (.node .nil (nat_lit 63883) (nat_lit 52620) .nil) (nat_lit 63884) (nat_lit 55022) .nil) (nat_lit 63885) (nat_lit 73412) (.node (.node .nil (nat_lit 63886) (nat_lit 48360) .nil) (nat_lit 63887) (nat_lit 49952) .nil)) (nat_lit 63888) (nat_lit 50176) (.node (.node (.node .nil (nat_lit 63889) (nat_lit 51508) .nil) (nat_lit 63890) (nat_lit 56902) .nil) (nat_lit 63891) (nat_lit 58002) (.node .nil (nat_lit 63892) (nat_lit 59666) .nil))) (nat_lit 63893) (nat_lit 62356) (.node (.node (.node (.node .nil (nat_lit 63894) (nat_lit 64488) .nil) (nat_lit 63895) (nat_lit 65758) .nil) (nat_lit 63896) (nat_lit 73292) (.node (.node .nil (nat_lit 63897) (nat_lit 68060) .nil) (nat_lit 63898) (nat_lit 73798) .nil)) (nat_lit 63899) (nat_lit 75412) (.node (.node (.node .nil (nat_lit 63900) (nat_lit 42030) .nil) (nat_lit 63901) (nat_lit 42310) .nil) (nat_lit 63902) (nat_lit 43386) (.node .nil (nat_lit 63903) (nat_lit 57744) .nil)))))

def decT011100 : Tree :=
  .node (.node (.node (.node (.node (.node (.node .nil (nat_lit 63905) (nat_lit 70996) .nil) (nat_lit 63906) (nat_lit 48530) .nil) (nat_lit 63907) (nat_lit 49130) (.node (.node .nil (nat_lit 63908) (nat_lit 50934) .nil) (nat_lit 63909) (nat_lit 55132) .nil)) (nat_lit 63910) (nat_lit 63612) (.node (.node (.node .nil (nat_lit 63911) (nat_lit 59114) .nil) (nat_lit 63912) (nat_lit 40392) .nil) (nat_lit 63913) (nat_lit 44530) (.node (.node .nil (nat_lit 63914) (nat_lit 47054) .nil) (nat_lit 63915) (nat_lit 47988) .nil))) (nat_lit 63916) (nat_lit 49208) (.node (.node (.node (.node .nil (nat_lit 63917) (nat_lit 59236) .nil) (nat_lit 63918) (nat_lit 59602) .nil) (nat_lit 63919) (nat_lit 65332) (.node (.node .nil (nat_lit 63920) (nat_lit 65676) .nil) (nat_lit 63921) (nat_lit 74856) .nil)) (nat_lit 63922) (nat_lit 77292) (.node (.node (.node .nil (nat_lit 63923) (nat_lit 77456) .nil) (nat_lit 63924) (nat_lit 77872) .nil) (nat_lit 63925) (nat_lit 40726) (.node .nil (nat_lit 63926) (nat_lit 62300) .nil)))) (nat_lit 63927) (nat_lit 74600) (.node (.node (.node (.node (.node .nil (nat_lit 63928) (nat_lit 77168) .nil) (nat_lit 63929) (nat_lit 49602) .nil) (nat_lit 63930) (nat_lit 40204) (.node (.node .nil (nat_lit 63931) (nat_lit 41396) .nil) (nat_lit 63932) (nat_lit 47068) .nil)) (nat_lit 63933) (nat_lit 47230) (.node (.node (.node .nil (nat_lit 63934) (nat_lit 52018) .nil) (nat_lit 63935) (nat_lit 54276) .nil) (nat_lit 63936) (nat_lit 58268) (.node .nil (nat_lit 63937) (nat_lit 60548) .nil))) (nat_lit 63938) (nat_lit 68088) (.node (.node (.node (.node .nil (nat_lit 63939) (nat_lit 73976) .nil) (nat_lit 63940) (nat_lit 81690) .nil) (nat_lit 63941) (nat_lit 52496) (.node (.node .nil (nat_lit 63942) (nat_lit 76892) .nil) (nat_lit 63943) (nat_lit 42258) .nil)) (nat_lit 63944) (nat_lit 52982) (.node (.node (.node .nil (nat_lit 63945) (nat_lit 53222) .nil) (nat_lit 63946) (nat_lit 55938) .nil) (nat_lit 63947) (nat_lit 56632) (.node .nil (nat_lit 63948) (nat_lit 59410) .nil))))) (nat_lit 63949) (nat_lit 60082) (.node (.node (.node (.node (.node (.node .nil (nat_lit 63950) (nat_lit 61654) .nil) (nat_lit 63951) (nat_lit 64032) .nil) (nat_lit 63952) (nat_lit 78012) (.node (.node .nil (nat_lit 63953) (nat_lit 41690) .nil) (nat_lit 63954) (nat_lit 50268) .nil)) (nat_lit 63955) (nat_lit 77040) (.node (.node (.node .nil (nat_lit 63956) (nat_lit 41046) .nil) (nat_lit 63957) (nat_lit 47666) .nil) (nat_lit 63958) (nat_lit 56276) (.node (.node .nil (nat_lit 63959) (nat_lit 73300) .nil) (nat_lit 63960) (nat_lit 48918) .nil))) (nat_lit 63961) (nat_lit 49800) (.node (.node (.node (.node .nil (nat_lit 63962) (nat_lit 53294) .nil) (nat_lit 63963) (nat_lit 59150) .nil) (nat_lit 63964) (nat_lit 77068) (.node (.node .nil (nat_lit 63965) (nat_lit 42066) .nil) (nat_lit 63966) (nat_lit 43038) .nil)) (nat_lit 63967) (nat_lit 47306) (.node (.node (.node .nil (nat_lit 63968) (nat_lit 52262) .nil) (nat_lit 63969) (nat_lit 52892) .nil) (nat_lit 63970) (nat_lit 53584) (.node .nil (nat_lit 63971) (nat_lit 55754) .nil)))) (nat_lit 63972) (nat_lit 59404) (.node (.node (.node (.node (.node .nil (nat_lit 63973) (nat_lit 60356) .nil) (nat_lit 63974) (nat_lit 65266) .nil) (nat_lit 63975) (nat_lit 70046) (.node (.node .nil (nat_lit 63976) (nat_lit 70082) .nil) (nat_lit 63977) (nat_lit 74648) .nil)) (nat_lit 63978) (nat_lit 77252) (.node (.node (.node .nil (nat_lit 63979) (nat_lit 42622) .nil) (nat_lit 63980) (nat_lit 56692) .nil) (nat_lit 63981) (nat_lit 43066) (.node .nil (nat_lit 63982) (nat_lit 58272) .nil))) (nat_lit 63983) (nat_lit 59696) (.node (.node (.node (.node .nil (nat_lit 63984) (nat_lit 68596) .nil) (nat_lit 63985) (nat_lit 77126) .nil) (nat_lit 63986) (nat_lit 80046) (.node (.node .nil (nat_lit 63987) (nat_lit 81214) .nil) (nat_lit 63988) (nat_lit 53038) .nil)) (nat_lit 63989) (nat_lit 56214) (.node (.node (.node .nil (nat_lit 63990) (nat_lit 66512) .nil) (nat_lit 63991) (nat_lit 62870) .nil) (nat_lit 63992) (nat_lit 63040) (.node .nil (nat_lit 63993) (nat_lit 63780) .nil)))))

def decT011101 : Tree :=
  .node (.node (.node (.node (.node (.node (.node .nil (nat_lit 63995) (nat_lit 57650) .nil) (nat_lit 63996) (nat_lit 71344) .nil) (nat_lit 63997) (nat_lit 40320) (.node (.node .nil (nat_lit 63998) (nat_lit 67180) .nil) (nat_lit 63999) (nat_lit 42100) .nil)) (nat_lit 64000) (nat_lit 41998) (.node (.node (.node .nil (nat_lit 64001) (nat_lit 48460) .nil) (nat_lit 64002) (nat_lit 50598) .nil) (nat_lit 64003) (nat_lit 63916) (.node (.node .nil (nat_lit 64004) (nat_lit 46858) .nil) (nat_lit 64005) (nat_lit 55868) .nil))) (nat_lit 64006) (nat_lit 52584) (.node (.node (.node (.node .nil (nat_lit 64007) (nat_lit 73334) .nil) (nat_lit 64008) (nat_lit 69784) .nil) (nat_lit 64009) (nat_lit 76954) (.node (.node .nil (nat_lit 64010) (nat_lit 70422) .nil) (nat_lit 64011) (nat_lit 48550) .nil)) (nat_lit 64012) (nat_lit 41600) (.node (.node (.node .nil (nat_lit 64013) (nat_lit 43904) .nil) (nat_lit 64016) (nat_lit 45236) .nil) (nat_lit 64018) (nat_lit 52456) (.node .nil (nat_lit 64021) (nat_lit 41916) .nil)))) (nat_lit 64022) (nat_lit 58964) (.node (.node (.node (.node (.node .nil (nat_lit 64023) (nat_lit 60820) .nil) (nat_lit 64024) (nat_lit 62072) .nil) (nat_lit 64025) (nat_lit 62140) (.node (.node .nil (nat_lit 64026) (nat_lit 62154) .nil) (nat_lit 64027) (nat_lit 62238) .nil)) (nat_lit 64028) (nat_lit 77484) (.node (.node (.node .nil (nat_lit 64029) (nat_lit 63868) .nil) (nat_lit 64030) (nat_lit 65402) .nil) (nat_lit 64032) (nat_lit 68644) (.node .nil (nat_lit 64034) (nat_lit 71152) .nil))) (nat_lit 64037) (nat_lit 73840) (.node (.node (.node (.node .nil (nat_lit 64038) (nat_lit 74234) .nil) (nat_lit 64042) (nat_lit 78302) .nil) (nat_lit 64043) (nat_lit 78328) (.node (.node .nil (nat_lit 64044) (nat_lit 78416) .nil) (nat_lit 64045) (nat_lit 80744) .nil)) (nat_lit 64046) (nat_lit 74172) (.node (.node (.node .nil (nat_lit 64047) (nat_lit 77166) .nil) (nat_lit 64048) (nat_lit 40796) .nil) (nat_lit 64049) (nat_lit 41422) (.node .nil (nat_lit 64050) (nat_lit 41626) .nil))))) (nat_lit 64051) (nat_lit 42386) (.node (.node (.node (.node (.node (.node .nil (nat_lit 64052) (nat_lit 42440) .nil) (nat_lit 64053) (nat_lit 42658) .nil) (nat_lit 64054) (nat_lit 43834) (.node (.node .nil (nat_lit 64055) (nat_lit 44044) .nil) (nat_lit 64056) (nat_lit 44240) .nil)) (nat_lit 64057) (nat_lit 45184) (.node (.node (.node .nil (nat_lit 64058) (nat_lit 45392) .nil) (nat_lit 64059) (nat_lit 47304) .nil) (nat_lit 64060) (nat_lit 47324) (.node .nil (nat_lit 64061) (nat_lit 49448) .nil))) (nat_lit 64062) (nat_lit 49872) (.node (.node (.node (.node .nil (nat_lit 64063) (nat_lit 49948) .nil) (nat_lit 64064) (nat_lit 50148) .nil) (nat_lit 64065) (nat_lit 51870) (.node (.node .nil (nat_lit 64066) (nat_lit 52164) .nil) (nat_lit 64067) (nat_lit 52514) .nil)) (nat_lit 64068) (nat_lit 53514) (.node (.node (.node .nil (nat_lit 64069) (nat_lit 56046) .nil) (nat_lit 64070) (nat_lit 56372) .nil) (nat_lit 64071) (nat_lit 56900) (.node .nil (nat_lit 64072) (nat_lit 58076) .nil)))) (nat_lit 64073) (nat_lit 58454) (.node (.node (.node (.node (.node .nil (nat_lit 64074) (nat_lit 59460) .nil) (nat_lit 64075) (nat_lit 61730) .nil) (nat_lit 64076) (nat_lit 62076) (.node (.node .nil (nat_lit 64077) (nat_lit 62098) .nil) (nat_lit 64078) (nat_lit 62096) .nil)) (nat_lit 64079) (nat_lit 62112) (.node (.node (.node .nil (nat_lit 64080) (nat_lit 62124) .nil) (nat_lit 64081) (nat_lit 62138) .nil) (nat_lit 64082) (nat_lit 62234) (.node .nil (nat_lit 64083) (nat_lit 62236) .nil))) (nat_lit 64084) (nat_lit 62592) (.node (.node (.node (.node .nil (nat_lit 64085) (nat_lit 62722) .nil) (nat_lit 64086) (nat_lit 63360) .nil) (nat_lit 64087) (nat_lit 64488) (.node (.node .nil (nat_lit 64088) (nat_lit 64530) .nil) (nat_lit 64089) (nat_lit 64642) .nil)) (nat_lit 64090) (nat_lit 65252) (.node (.node (.node .nil (nat_lit 64091) (nat_lit 65546) .nil) (nat_lit 64092) (nat_lit 66522) .nil) (nat_lit 64093) (nat_lit 66802) (.node .nil (nat_lit 64094) (nat_lit 66802) .nil)))))

def decT011110 : Tree :=
  .node (.node (.node (.node (.node (.node (.node .nil (nat_lit 64096) (nat_lit 70176) .nil) (nat_lit 64097) (nat_lit 70444) .nil) (nat_lit 64098) (nat_lit 71170) (.node (.node .nil (nat_lit 64099) (nat_lit 71282) .nil) (nat_lit 64100) (nat_lit 72102) .nil)) (nat_lit 64101) (nat_lit 72208) (.node (.node (.node .nil (nat_lit 64102) (nat_lit 73580) .nil) (nat_lit 64103) (nat_lit 73840) .nil) (nat_lit 64104) (nat_lit 77254) (.node (.node .nil (nat_lit 64105) (nat_lit 77822) .nil) (nat_lit 64106) (nat_lit 77942) .nil))) (nat_lit 64107) (nat_lit 49386) (.node (.node (.node (.node .nil (nat_lit 64108) (nat_lit 296412) .nil) (nat_lit 64109) (nat_lit 66608) .nil) (nat_lit 64112) (nat_lit 40012) (.node (.node .nil (nat_lit 64113) (nat_lit 41834) .nil) (nat_lit 64114) (nat_lit 41680) .nil)) (nat_lit 64115) (nat_lit 40704) (.node (.node (.node .nil (nat_lit 64116) (nat_lit 41610) .nil) (nat_lit 64117) (nat_lit 41728) .nil) (nat_lit 64118) (nat_lit 42382) (.node .nil (nat_lit 64119) (nat_lit 42484) .nil)))) (nat_lit 64120) (nat_lit 43834) (.node (.node (.node (.node (.node .nil (nat_lit 64121) (nat_lit 43690) .nil) (nat_lit 64122) (nat_lit 43826) .nil) (nat_lit 64123) (nat_lit 43972) (.node (.node .nil (nat_lit 64124) (nat_lit 45236) .nil) (nat_lit 64125) (nat_lit 45414) .nil)) (nat_lit 64126) (nat_lit 45704) (.node (.node (.node .nil (nat_lit 64127) (nat_lit 45736) .nil) (nat_lit 64128) (nat_lit 46276) .nil) (nat_lit 64129) (nat_lit 46672) (.node .nil (nat_lit 64130) (nat_lit 48548) .nil))) (nat_lit 64131) (nat_lit 48562) (.node (.node (.node (.node .nil (nat_lit 64132) (nat_lit 48850) .nil) (nat_lit 64133) (nat_lit 48986) .nil) (nat_lit 64134) (nat_lit 49584) (.node (.node .nil (nat_lit 64135) (nat_lit 49820) .nil) (nat_lit 64136) (nat_lit 49680) .nil)) (nat_lit 64137) (nat_lit 49948) (.node (.node (.node .nil (nat_lit 64138) (nat_lit 49856) .nil) (nat_lit 64139) (nat_lit 50148) .nil) (nat_lit 64140) (nat_lit 50280) (.node .nil (nat_lit 64141) (nat_lit 51080) .nil))))) (nat_lit 64142) (nat_lit 51256) (.node (.node (.node (.node (.node (.node .nil (nat_lit 64143) (nat_lit 51364) .nil) (nat_lit 64144) (nat_lit 51884) .nil) (nat_lit 64145) (nat_lit 52456) (.node (.node .nil (nat_lit 64146) (nat_lit 52782) .nil) (nat_lit 64147) (nat_lit 52790) .nil)) (nat_lit 64148) (nat_lit 52908) (.node (.node (.node .nil (nat_lit 64149) (nat_lit 55026) .nil) (nat_lit 64150) (nat_lit 55156) .nil) (nat_lit 64151) (nat_lit 55938) (.node .nil (nat_lit 64152) (nat_lit 56758) .nil))) (nat_lit 64153) (nat_lit 56726) (.node (.node (.node (.node .nil (nat_lit 64154) (nat_lit 56900) .nil) (nat_lit 64155) (nat_lit 57404) .nil) (nat_lit 64156) (nat_lit 58076) (.node (.node .nil (nat_lit 64157) (nat_lit 61262) .nil) (nat_lit 64158) (nat_lit 58474) .nil)) (nat_lit 64159) (nat_lit 58718) (.node (.node (.node .nil (nat_lit 64160) (nat_lit 58964) .nil) (nat_lit 64161) (nat_lit 59618) .nil) (nat_lit 64162) (nat_lit 59916) (.node .nil (nat_lit 64163) (nat_lit 60022) .nil)))) (nat_lit 64164) (nat_lit 60474) (.node (.node (.node (.node (.node .nil (nat_lit 64165) (nat_lit 60478) .nil) (nat_lit 64166) (nat_lit 60820) .nil) (nat_lit 64167) (nat_lit 60854) (.node (.node .nil (nat_lit 64168) (nat_lit 60904) .nil) (nat_lit 64169) (nat_lit 61076) .nil)) (nat_lit 64170) (nat_lit 61056) (.node (.node (.node .nil (nat_lit 64171) (nat_lit 61848) .nil) (nat_lit 64172) (nat_lit 62818) .nil) (nat_lit 64173) (nat_lit 63360) (.node .nil (nat_lit 64174) (nat_lit 63734) .nil))) (nat_lit 64175) (nat_lit 64182) (.node (.node (.node (.node .nil (nat_lit 64176) (nat_lit 64488) .nil) (nat_lit 64177) (nat_lit 65148) .nil) (nat_lit 64178) (nat_lit 65546) (.node (.node .nil (nat_lit 64179) (nat_lit 67236) .nil) (nat_lit 64180) (nat_lit 67550) .nil)) (nat_lit 64181) (nat_lit 69362) (.node (.node (.node .nil (nat_lit 64182) (nat_lit 70274) .nil) (nat_lit 64183) (nat_lit 70412) .nil) (nat_lit 64184) (nat_lit 70444) (.node .nil (nat_lit 64185) (nat_lit 71038) .nil)))))

def decT011111 : Tree :=
  .node (.node (.node (.node (.node (.node (.node .nil (nat_lit 64187) (nat_lit 71062) .nil) (nat_lit 64188) (nat_lit 71170) .nil) (nat_lit 64189) (nat_lit 71164) (.node (.node .nil (nat_lit 64190) (nat_lit 71130) .nil) (nat_lit 64191) (nat_lit 71282) .nil)) (nat_lit 64192) (nat_lit 71444) (.node (.node (.node .nil (nat_lit 64193) (nat_lit 72208) .nil) (nat_lit 64194) (nat_lit 73328) .nil) (nat_lit 64195) (nat_lit 73956) (.node (.node .nil (nat_lit 64196) (nat_lit 74546) .nil) (nat_lit 64197) (nat_lit 74988) .nil))) (nat_lit 64198) (nat_lit 77048) (.node (.node (.node (.node .nil (nat_lit 64199) (nat_lit 77254) .nil) (nat_lit 64200) (nat_lit 77484) .nil) (nat_lit 64201) (nat_lit 77750) (.node (.node .nil (nat_lit 64202) (nat_lit 77822) .nil) (nat_lit 64203) (nat_lit 77846) .nil)) (nat_lit 64204) (nat_lit 77942) (.node (.node (.node .nil (nat_lit 64205) (nat_lit 79396) .nil) (nat_lit 64206) (nat_lit 81720) .nil) (nat_lit 64207) (nat_lit 282772) (.node .nil (nat_lit 64208) (nat_lit 282760) .nil)))) (nat_lit 64209) (nat_lit 288682) (.node (.node (.node (.node (.node .nil (nat_lit 64210) (nat_lit 30522) .nil) (nat_lit 64211) (nat_lit 32816) .nil) (nat_lit 64212) (nat_lit 32882) (.node (.node .nil (nat_lit 64213) (nat_lit 304274) .nil) (nat_lit 64214) (nat_lit 309664) .nil)) (nat_lit 64215) (nat_lit 327078) (.node (.node (.node .nil (nat_lit 64216) (nat_lit 81542) .nil) (nat_lit 64217) (nat_lit 81692) .nil) (nat_lit 64256) (nat_lit 427819213) (.node .nil (nat_lit 64257) (nat_lit 440402125) .nil))) (nat_lit 64258) (nat_lit 452985037) (.node (.node (.node (.node .nil (nat_lit 64259) (nat_lit 923590195151053) .nil) (nat_lit 64260) (nat_lit 949978474217677) .nil) (nat_lit 64261) (nat_lit 486540031) (.node (.node .nil (nat_lit 64262) (nat_lit 486539495) .nil) (nat_lit 64275) (nat_lit 5863639785) .nil)) (nat_lit 64276) (nat_lit 5792336617) (.node (.node (.node .nil (nat_lit 64277) (nat_lit 5817502441) .nil) (nat_lit 64278) (nat_lit 5863639805) .nil) (nat_lit 64279) (nat_lit 5825891049) (.node .nil (nat_lit 64285) (nat_lit 6123686834) .nil))))) (nat_lit 64287) (nat_lit 6136269796) (.node (.node (.node (.node (.node (.node .nil (nat_lit 64288) (nat_lit 3013) .nil) (nat_lit 64289) (nat_lit 2977) .nil) (nat_lit 64290) (nat_lit 2983) (.node (.node .nil (nat_lit 64291) (nat_lit 2985) .nil) (nat_lit 64292) (nat_lit 2999) .nil)) (nat_lit 64293) (nat_lit 3001) (.node (.node (.node .nil (nat_lit 64294) (nat_lit 3003) .nil) (nat_lit 64295) (nat_lit 3025) .nil) (nat_lit 64296) (nat_lit 3029) (.node .nil (nat_lit 64297) (nat_lit 87) .nil))) (nat_lit 64298) (nat_lit 6178212818) (.node (.node (.node (.node .nil (nat_lit 64299) (nat_lit 6182407122) .nil) (nat_lit 64300) (nat_lit 6178338450) .nil) (nat_lit 64301) (nat_lit 6182532754) (.node (.node .nil (nat_lit 64302) (nat_lit 6136269728) .nil) (nat_lit 64303) (nat_lit 6140464032) .nil)) (nat_lit 64304) (nat_lit 6157241248) (.node (.node (.node .nil (nat_lit 64305) (nat_lit 6157241250) .nil) (nat_lit 64306) (nat_lit 6157241252) .nil) (nat_lit 64307) (nat_lit 6157241254) (.node .nil (nat_lit 64308) (nat_lit 6157241256) .nil)))) (nat_lit 64309) (nat_lit 6157241258) (.node (.node (.node (.node (.node .nil (nat_lit 64310) (nat_lit 6157241260) .nil) (nat_lit 64312) (nat_lit 6157241264) .nil) (nat_lit 64313) (nat_lit 6157241266) (.node (.node .nil (nat_lit 64314) (nat_lit 6157241268) .nil) (nat_lit 64315) (nat_lit 6157241270) .nil)) (nat_lit 64316) (nat_lit 6157241272) (.node (.node (.node .nil (nat_lit 64318) (nat_lit 6157241276) .nil) (nat_lit 64320) (nat_lit 6157241280) .nil) (nat_lit 64321) (nat_lit 6157241282) (.node .nil (nat_lit 64323) (nat_lit 6157241286) .nil))) (nat_lit 64324) (nat_lit 6157241288) (.node (.node (.node (.node .nil (nat_lit 64326) (nat_lit 6157241292) .nil) (nat_lit 64327) (nat_lit 6157241294) .nil) (nat_lit 64328) (nat_lit 6157241296) (.node (.node .nil (nat_lit 64329) (nat_lit 6157241298) .nil) (nat_lit 64330) (nat_lit 6157241300) .nil)) (nat_lit 64331) (nat_lit 6144658346) (.node (.node (.node .nil (nat_lit 64332) (nat_lit 6169824162) .nil) (nat_lit 64333) (nat_lit 6169824182) .nil) (nat_lit 64334) (nat_lit 6169824200) (.node .nil (nat_lit 64335) (nat_lit 6291458977) .nil)))))

def decT100000 : Tree :=
  .node (.node (.node (.node (.node (.node (.node .nil (nat_lit 64337) (nat_lit 3299) .nil) (nat_lit 64338) (nat_lit 3319) .nil) (nat_lit 64339) (nat_lit 3319) (.node (.node .nil (nat_lit 64340) (nat_lit 3319) .nil) (nat_lit 64341) (nat_lit 3319) .nil)) (nat_lit 64342) (nat_lit 3325) (.node (.node (.node .nil (nat_lit 64343) (nat_lit 3325) .nil) (nat_lit 64344) (nat_lit 3325) .nil) (nat_lit 64345) (nat_lit 3325) (.node (.node .nil (nat_lit 64346) (nat_lit 3329) .nil) (nat_lit 64347) (nat_lit 3329) .nil))) (nat_lit 64348) (nat_lit 3329) (.node (.node (.node (.node .nil (nat_lit 64349) (nat_lit 3329) .nil) (nat_lit 64350) (nat_lit 3317) .nil) (nat_lit 64351) (nat_lit 3317) (.node (.node .nil (nat_lit 64352) (nat_lit 3317) .nil) (nat_lit 64353) (nat_lit 3317) .nil)) (nat_lit 64354) (nat_lit 3327) (.node (.node (.node .nil (nat_lit 64355) (nat_lit 3327) .nil) (nat_lit 64356) (nat_lit 3327) .nil) (nat_lit 64357) (nat_lit 3327) (.node .nil (nat_lit 64358) (nat_lit 3315) .nil)))) (nat_lit 64359) (nat_lit 3315) (.node (.node (.node (.node (.node .nil (nat_lit 64360) (nat_lit 3315) .nil) (nat_lit 64361) (nat_lit 3315) .nil) (nat_lit 64362) (nat_lit 3401) (.node (.node .nil (nat_lit 64363) (nat_lit 3401) .nil) (nat_lit 64364) (nat_lit 3401) .nil)) (nat_lit 64365) (nat_lit 3401) (.node (.node (.node .nil (nat_lit 64366) (nat_lit 3405) .nil) (nat_lit 64367) (nat_lit 3405) .nil) (nat_lit 64368) (nat_lit 3405) (.node .nil (nat_lit 64369) (nat_lit 3405) .nil))) (nat_lit 64370) (nat_lit 3337) (.node (.node (.node (.node .nil (nat_lit 64371) (nat_lit 3337) .nil) (nat_lit 64372) (nat_lit 3337) .nil) (nat_lit 64373) (nat_lit 3337) (.node (.node .nil (nat_lit 64374) (nat_lit 3335) .nil) (nat_lit 64375) (nat_lit 3335) .nil)) (nat_lit 64376) (nat_lit 3335) (.node (.node (.node .nil (nat_lit 64377) (nat_lit 3335) .nil) (nat_lit 64378) (nat_lit 3341) .nil) (nat_lit 64379) (nat_lit 3341) (.node .nil (nat_lit 64380) (nat_lit 3341) .nil))))) (nat_lit 64381) (nat_lit 3341) (.node (.node (.node (.node (.node (.node .nil (nat_lit 64382) (nat_lit 3343) .nil) (nat_lit 64383) (nat_lit 3343) .nil) (nat_lit 64384) (nat_lit 3343) (.node (.node .nil (nat_lit 64385) (nat_lit 3343) .nil) (nat_lit 64386) (nat_lit 3355) .nil)) (nat_lit 64387) (nat_lit 3355) (.node (.node (.node .nil (nat_lit 64388) (nat_lit 3353) .nil) (nat_lit 64389) (nat_lit 3353) .nil) (nat_lit 64390) (nat_lit 3357) (.node (.node .nil (nat_lit 64391) (nat_lit 3357) .nil) (nat_lit 64392) (nat_lit 3345) .nil))) (nat_lit 64393) (nat_lit 3345) (.node (.node (.node (.node .nil (nat_lit 64394) (nat_lit 3377) .nil) (nat_lit 64395) (nat_lit 3377) .nil) (nat_lit 64396) (nat_lit 3363) (.node (.node .nil (nat_lit 64397) (nat_lit 3363) .nil) (nat_lit 64398) (nat_lit 3411) .nil)) (nat_lit 64399) (nat_lit 3411) (.node (.node (.node .nil (nat_lit 64400) (nat_lit 3411) .nil) (nat_lit 64401) (nat_lit 3411) .nil) (nat_lit 64402) (nat_lit 3423) (.node .nil (nat_lit 64403) (nat_lit 3423) .nil)))) (nat_lit 64404) (nat_lit 3423) (.node (.node (.node (.node (.node .nil (nat_lit 64405) (nat_lit 3423) .nil) (nat_lit 64406) (nat_lit 3431) .nil) (nat_lit 64407) (nat_lit 3431) (.node (.node .nil (nat_lit 64408) (nat_lit 3431) .nil) (nat_lit 64409) (nat_lit 3431) .nil)) (nat_lit 64410) (nat_lit 3427) (.node (.node (.node .nil (nat_lit 64411) (nat_lit 3427) .nil) (nat_lit 64412) (nat_lit 3427) .nil) (nat_lit 64413) (nat_lit 3427) (.node .nil (nat_lit 64414) (nat_lit 3445) .nil))) (nat_lit 64415) (nat_lit 3445) (.node (.node (.node (.node .nil (nat_lit 64416) (nat_lit 3447) .nil) (nat_lit 64417) (nat_lit 3447) .nil) (nat_lit 64418) (nat_lit 3447) (.node (.node .nil (nat_lit 64419) (nat_lit 3447) .nil) (nat_lit 64420) (nat_lit 3457) .nil)) (nat_lit 64421) (nat_lit 3457) (.node (.node (.node .nil (nat_lit 64422) (nat_lit 3459) .nil) (nat_lit 64423) (nat_lit 3459) .nil) (nat_lit 64424) (nat_lit 3459) (.node .nil (nat_lit 64425) (nat_lit 3459) .nil)))))

def decT100001 : Tree :=
  .node (.node (.node (.node (.node (.node (.node .nil (nat_lit 64427) (nat_lit 3453) .nil) (nat_lit 64428) (nat_lit 3453) .nil) (nat_lit 64429) (nat_lit 3453) (.node (.node .nil (nat_lit 64430) (nat_lit 3493) .nil) (nat_lit 64431) (nat_lit 3493) .nil)) (nat_lit 64432) (nat_lit 3495) (.node (.node (.node .nil (nat_lit 64433) (nat_lit 3495) .nil) (nat_lit 64467) (nat_lit 3419) .nil) (nat_lit 64468) (nat_lit 3419) (.node (.node .nil (nat_lit 64469) (nat_lit 3419) .nil) (nat_lit 64470) (nat_lit 3419) .nil))) (nat_lit 64471) (nat_lit 3471) (.node (.node (.node (.node .nil (nat_lit 64472) (nat_lit 3471) .nil) (nat_lit 64473) (nat_lit 3469) .nil) (nat_lit 64474) (nat_lit 3469) (.node (.node .nil (nat_lit 64475) (nat_lit 3473) .nil) (nat_lit 64476) (nat_lit 3473) .nil)) (nat_lit 64477) (nat_lit 3311) (.node (.node (.node .nil (nat_lit 64478) (nat_lit 3479) .nil) (nat_lit 64479) (nat_lit 3479) .nil) (nat_lit 64480) (nat_lit 3467) (.node .nil (nat_lit 64481) (nat_lit 3467) .nil)))) (nat_lit 64482) (nat_lit 3475) (.node (.node (.node (.node (.node .nil (nat_lit 64483) (nat_lit 3475) .nil) (nat_lit 64484) (nat_lit 3489) .nil) (nat_lit 64485) (nat_lit 3489) (.node (.node .nil (nat_lit 64486) (nat_lit 3489) .nil) (nat_lit 64487) (nat_lit 3489) .nil)) (nat_lit 64488) (nat_lit 3219) (.node (.node (.node .nil (nat_lit 64489) (nat_lit 3219) .nil) (nat_lit 64490) (nat_lit 6606031949) .nil) (nat_lit 64491) (nat_lit 6606031949) (.node .nil (nat_lit 64492) (nat_lit 7335840845) .nil))) (nat_lit 64493) (nat_lit 7335840845) (.node (.node (.node (.node .nil (nat_lit 64494) (nat_lit 6744443981) .nil) (nat_lit 64495) (nat_lit 6744443981) .nil) (nat_lit 64496) (nat_lit 7277120589) (.node (.node .nil (nat_lit 64497) (nat_lit 7277120589) .nil) (nat_lit 64498) (nat_lit 7272926285) .nil)) (nat_lit 64499) (nat_lit 7272926285) (.node (.node (.node .nil (nat_lit 64500) (nat_lit 7281314893) .nil) (nat_lit 64501) (nat_lit 7281314893) .nil) (nat_lit 64502) (nat_lit 7314869325) (.node .nil (nat_lit 64503) (nat_lit 7314869325) .nil))))) (nat_lit 64504) (nat_lit 7314869325) (.node (.node (.node (.node (.node (.node .nil (nat_lit 64505) (nat_lit 6748638285) .nil) (nat_lit 64506) (nat_lit 6748638285) .nil) (nat_lit 64507) (nat_lit 6748638285) (.node (.node .nil (nat_lit 64508) (nat_lit 3481) .nil) (nat_lit 64509) (nat_lit 3481) .nil)) (nat_lit 64510) (nat_lit 3481) (.node (.node (.node .nil (nat_lit 64511) (nat_lit 3481) .nil) (nat_lit 64512) (nat_lit 6627003469) .nil) (nat_lit 64513) (nat_lit 6631197773) (.node .nil (nat_lit 64514) (nat_lit 6731861069) .nil))) (nat_lit 64515) (nat_lit 6748638285) (.node (.node (.node (.node .nil (nat_lit 64516) (nat_lit 6752832589) .nil) (nat_lit 64517) (nat_lit 6627003473) .nil) (nat_lit 64518) (nat_lit 6631197777) (.node (.node .nil (nat_lit 64519) (nat_lit 6635392081) .nil) (nat_lit 64520) (nat_lit 6731861073) .nil)) (nat_lit 64521) (nat_lit 6748638289) (.node (.node (.node .nil (nat_lit 64522) (nat_lit 6752832593) .nil) (nat_lit 64523) (nat_lit 6627003477) .nil) (nat_lit 64524) (nat_lit 6631197781) (.node .nil (nat_lit 64525) (nat_lit 6635392085) .nil)))) (nat_lit 64526) (nat_lit 6731861077) (.node (.node (.node (.node (.node .nil (nat_lit 64527) (nat_lit 6748638293) .nil) (nat_lit 64528) (nat_lit 6752832597) .nil) (nat_lit 64529) (nat_lit 6627003479) (.node (.node .nil (nat_lit 64530) (nat_lit 6731861079) .nil) (nat_lit 64531) (nat_lit 6748638295) .nil)) (nat_lit 64532) (nat_lit 6752832599) (.node (.node (.node .nil (nat_lit 64533) (nat_lit 6631197785) .nil) (nat_lit 64534) (nat_lit 6731861081) .nil) (nat_lit 64535) (nat_lit 6627003483) (.node .nil (nat_lit 64536) (nat_lit 6731861083) .nil))) (nat_lit 64537) (nat_lit 6627003485) (.node (.node (.node (.node .nil (nat_lit 64538) (nat_lit 6631197789) .nil) (nat_lit 64539) (nat_lit 6731861085) .nil) (nat_lit 64540) (nat_lit 6627003495) (.node (.node .nil (nat_lit 64541) (nat_lit 6631197799) .nil) (nat_lit 64542) (nat_lit 6635392103) .nil)) (nat_lit 64543) (nat_lit 6731861095) (.node (.node (.node .nil (nat_lit 64544) (nat_lit 6631197803) .nil) (nat_lit 64545) (nat_lit 6731861099) .nil) (nat_lit 64546) (nat_lit 6627003501) (.node .nil (nat_lit 64547) (nat_lit 6631197805) .nil)))))

def decT100010 : Tree :=
  .node (.node (.node (.node (.node (.node (.node .nil (nat_lit 64549) (nat_lit 6731861101) .nil) (nat_lit 64550) (nat_lit 6631197807) .nil) (nat_lit 64551) (nat_lit 6731861103) (.node (.node .nil (nat_lit 64552) (nat_lit 6731861105) .nil) (nat_lit 64553) (nat_lit 6627003507) .nil)) (nat_lit 64554) (nat_lit 6731861107) (.node (.node (.node .nil (nat_lit 64555) (nat_lit 6627003509) .nil) (nat_lit 64556) (nat_lit 6731861109) .nil) (nat_lit 64557) (nat_lit 6627003523) (.node (.node .nil (nat_lit 64558) (nat_lit 6631197827) .nil) (nat_lit 64559) (nat_lit 6635392131) .nil))) (nat_lit 64560) (nat_lit 6731861123) (.node (.node (.node (.node .nil (nat_lit 64561) (nat_lit 6748638339) .nil) (nat_lit 64562) (nat_lit 6752832643) .nil) (nat_lit 64563) (nat_lit 6631197829) (.node (.node .nil (nat_lit 64564) (nat_lit 6731861125) .nil) (nat_lit 64565) (nat_lit 6748638341) .nil)) (nat_lit 64566) (nat_lit 6752832645) (.node (.node (.node .nil (nat_lit 64567) (nat_lit 6606032007) .nil) (nat_lit 64568) (nat_lit 6627003527) .nil) (nat_lit 64569) (nat_lit 6631197831) (.node .nil (nat_lit 64570) (nat_lit 6635392135) .nil)))) (nat_lit 64571) (nat_lit 6727666823) (.node (.node (.node (.node (.node .nil (nat_lit 64572) (nat_lit 6731861127) .nil) (nat_lit 64573) (nat_lit 6748638343) .nil) (nat_lit 64574) (nat_lit 6752832647) (.node (.node .nil (nat_lit 64575) (nat_lit 6627003529) .nil) (nat_lit 64576) (nat_lit 6631197833) .nil)) (nat_lit 64577) (nat_lit 6635392137) (.node (.node (.node .nil (nat_lit 64578) (nat_lit 6731861129) .nil) (nat_lit 64579) (nat_lit 6748638345) .nil) (nat_lit 64580) (nat_lit 6752832649) (.node .nil (nat_lit 64581) (nat_lit 6627003531) .nil))) (nat_lit 64582) (nat_lit 6631197835) (.node (.node (.node (.node .nil (nat_lit 64583) (nat_lit 6635392139) .nil) (nat_lit 64584) (nat_lit 6731861131) .nil) (nat_lit 64585) (nat_lit 6748638347) (.node (.node .nil (nat_lit 64586) (nat_lit 6752832651) .nil) (nat_lit 64587) (nat_lit 6627003533) .nil)) (nat_lit 64588) (nat_lit 6631197837) (.node (.node (.node .nil (nat_lit 64589) (nat_lit 6635392141) .nil) (nat_lit 64590) (nat_lit 6731861133) .nil) (nat_lit 64591) (nat_lit 6748638349) (.node .nil (nat_lit 64592) (nat_lit 6752832653) .nil))))) (nat_lit 64593) (nat_lit 6627003535) (.node (.node (.node (.node (.node (.node .nil (nat_lit 64594) (nat_lit 6731861135) .nil) (nat_lit 64595) (nat_lit 6748638351) .nil) (nat_lit 64596) (nat_lit 6752832655) (.node (.node .nil (nat_lit 64597) (nat_lit 6627003541) .nil) (nat_lit 64598) (nat_lit 6631197845) .nil)) (nat_lit 64599) (nat_lit 6635392149) (.node (.node (.node .nil (nat_lit 64600) (nat_lit 6731861141) .nil) (nat_lit 64601) (nat_lit 6748638357) .nil) (nat_lit 64602) (nat_lit 6752832661) (.node (.node .nil (nat_lit 64603) (nat_lit 6912216161) .nil) (nat_lit 64604) (nat_lit 6912216163) .nil))) (nat_lit 64605) (nat_lit 6912216211) (.node (.node (.node (.node .nil (nat_lit 64606) (nat_lit 14223289178128449) .nil) (nat_lit 64607) (nat_lit 14223289182322753) .nil) (nat_lit 64608) (nat_lit 14223289186517057) (.node (.node .nil (nat_lit 64609) (nat_lit 14223289190711361) .nil) (nat_lit 64610) (nat_lit 14223289194905665) .nil)) (nat_lit 64611) (nat_lit 14495968082788417) (.node (.node (.node .nil (nat_lit 64612) (nat_lit 6647974989) .nil) (nat_lit 64613) (nat_lit 6652169293) .nil) (nat_lit 64614) (nat_lit 6731861069) (.node .nil (nat_lit 64615) (nat_lit 6736055373) .nil)))) (nat_lit 64616) (nat_lit 6748638285) (.node (.node (.node (.node (.node .nil (nat_lit 64617) (nat_lit 6752832589) .nil) (nat_lit 64618) (nat_lit 6647974993) .nil) (nat_lit 64619) (nat_lit 6652169297) (.node (.node .nil (nat_lit 64620) (nat_lit 6731861073) .nil) (nat_lit 64621) (nat_lit 6736055377) .nil)) (nat_lit 64622) (nat_lit 6748638289) (.node (.node (.node .nil (nat_lit 64623) (nat_lit 6752832593) .nil) (nat_lit 64624) (nat_lit 6647974997) .nil) (nat_lit 64625) (nat_lit 6652169301) (.node .nil (nat_lit 64626) (nat_lit 6731861077) .nil))) (nat_lit 64627) (nat_lit 6736055381) (.node (.node (.node (.node .nil (nat_lit 64628) (nat_lit 6748638293) .nil) (nat_lit 64629) (nat_lit 6752832597) .nil) (nat_lit 64630) (nat_lit 6647974999) (.node (.node .nil (nat_lit 64631) (nat_lit 6652169303) .nil) (nat_lit 64632) (nat_lit 6731861079) .nil)) (nat_lit 64633) (nat_lit 6736055383) (.node (.node (.node .nil (nat_lit 64634) (nat_lit 6748638295) .nil) (nat_lit 64635) (nat_lit 6752832599) .nil) (nat_lit 64636) (nat_lit 6748638339) (.node .nil (nat_lit 64637) (nat_lit 6752832643) .nil)))))

def decT100011 : Tree :=
  .node (.node (.node (.node (.node (.node (.node .nil (nat_lit 64639) (nat_lit 6752832645) .nil) (nat_lit 64640) (nat_lit 6606032007) .nil) (nat_lit 64641) (nat_lit 6727666823) (.node (.node .nil (nat_lit 64642) (nat_lit 6731861127) .nil) (nat_lit 64643) (nat_lit 6748638343) .nil)) (nat_lit 64644) (nat_lit 6752832647) (.node (.node (.node .nil (nat_lit 64645) (nat_lit 6731861129) .nil) (nat_lit 64646) (nat_lit 6748638345) .nil) (nat_lit 64647) (nat_lit 6752832649) (.node (.node .nil (nat_lit 64648) (nat_lit 6606032011) .nil) (nat_lit 64649) (nat_lit 6731861131) .nil))) (nat_lit 64650) (nat_lit 6647975053) (.node (.node (.node (.node .nil (nat_lit 64651) (nat_lit 6652169357) .nil) (nat_lit 64652) (nat_lit 6731861133) .nil) (nat_lit 64653) (nat_lit 6736055437) (.node (.node .nil (nat_lit 64654) (nat_lit 6748638349) .nil) (nat_lit 64655) (nat_lit 6752832653) .nil)) (nat_lit 64656) (nat_lit 6912216211) (.node (.node (.node .nil (nat_lit 64657) (nat_lit 6647975061) .nil) (nat_lit 64658) (nat_lit 6652169365) .nil) (nat_lit 64659) (nat_lit 6731861141) (.node .nil (nat_lit 64660) (nat_lit 6736055445) .nil)))) (nat_lit 64661) (nat_lit 6748638357) (.node (.node (.node (.node (.node .nil (nat_lit 64662) (nat_lit 6752832661) .nil) (nat_lit 64663) (nat_lit 6627003469) .nil) (nat_lit 64664) (nat_lit 6631197773) (.node (.node .nil (nat_lit 64665) (nat_lit 6635392077) .nil) (nat_lit 64666) (nat_lit 6731861069) .nil)) (nat_lit 64667) (nat_lit 6740249677) (.node (.node (.node .nil (nat_lit 64668) (nat_lit 6627003473) .nil) (nat_lit 64669) (nat_lit 6631197777) .nil) (nat_lit 64670) (nat_lit 6635392081) (.node .nil (nat_lit 64671) (nat_lit 6731861073) .nil))) (nat_lit 64672) (nat_lit 6740249681) (.node (.node (.node (.node .nil (nat_lit 64673) (nat_lit 6627003477) .nil) (nat_lit 64674) (nat_lit 6631197781) .nil) (nat_lit 64675) (nat_lit 6635392085) (.node (.node .nil (nat_lit 64676) (nat_lit 6731861077) .nil) (nat_lit 64677) (nat_lit 6740249685) .nil)) (nat_lit 64678) (nat_lit 6731861079) (.node (.node (.node .nil (nat_lit 64679) (nat_lit 6631197785) .nil) (nat_lit 64680) (nat_lit 6731861081) .nil) (nat_lit 64681) (nat_lit 6627003483) (.node .nil (nat_lit 64682) (nat_lit 6731861083) .nil))))) (nat_lit 64683) (nat_lit 6627003485) (.node (.node (.node (.node (.node (.node .nil (nat_lit 64684) (nat_lit 6731861085) .nil) (nat_lit 64685) (nat_lit 6627003495) .nil) (nat_lit 64686) (nat_lit 6631197799) (.node (.node .nil (nat_lit 64687) (nat_lit 6635392103) .nil) (nat_lit 64688) (nat_lit 6731861095) .nil)) (nat_lit 64689) (nat_lit 6631197803) (.node (.node (.node .nil (nat_lit 64690) (nat_lit 6635392107) .nil) (nat_lit 64691) (nat_lit 6731861099) .nil) (nat_lit 64692) (nat_lit 6627003501) (.node .nil (nat_lit 64693) (nat_lit 6631197805) .nil))) (nat_lit 64694) (nat_lit 6635392109) (.node (.node (.node (.node .nil (nat_lit 64695) (nat_lit 6731861101) .nil) (nat_lit 64696) (nat_lit 6631197807) .nil) (nat_lit 64697) (nat_lit 6731861105) (.node (.node .nil (nat_lit 64698) (nat_lit 6627003507) .nil) (nat_lit 64699) (nat_lit 6731861107) .nil)) (nat_lit 64700) (nat_lit 6627003509) (.node (.node (.node .nil (nat_lit 64701) (nat_lit 6731861109) .nil) (nat_lit 64702) (nat_lit 6627003523) .nil) (nat_lit 64703) (nat_lit 6631197827) (.node .nil (nat_lit 64704) (nat_lit 6635392131) .nil)))) (nat_lit 64705) (nat_lit 6731861123) (.node (.node (.node (.node (.node .nil (nat_lit 64706) (nat_lit 6631197829) .nil) (nat_lit 64707) (nat_lit 6731861125) .nil) (nat_lit 64708) (nat_lit 6627003527) (.node (.node .nil (nat_lit 64709) (nat_lit 6631197831) .nil) (nat_lit 64710) (nat_lit 6635392135) .nil)) (nat_lit 64711) (nat_lit 6727666823) (.node (.node (.node .nil (nat_lit 64712) (nat_lit 6731861127) .nil) (nat_lit 64713) (nat_lit 6627003529) .nil) (nat_lit 64714) (nat_lit 6631197833) (.node .nil (nat_lit 64715) (nat_lit 6635392137) .nil))) (nat_lit 64716) (nat_lit 6731861129) (.node (.node (.node (.node .nil (nat_lit 64717) (nat_lit 6740249737) .nil) (nat_lit 64718) (nat_lit 6627003531) .nil) (nat_lit 64719) (nat_lit 6631197835) (.node (.node .nil (nat_lit 64720) (nat_lit 6635392139) .nil) (nat_lit 64721) (nat_lit 6731861131) .nil)) (nat_lit 64722) (nat_lit 6627003533) (.node (.node (.node .nil (nat_lit 64723) (nat_lit 6631197837) .nil) (nat_lit 64724) (nat_lit 6635392141) .nil) (nat_lit 64725) (nat_lit 6731861133) (.node .nil (nat_lit 64726) (nat_lit 6740249741) .nil)))))

def decT100100 : Tree :=
  .node (.node (.node (.node (.node (.node (.node .nil (nat_lit 64728) (nat_lit 6731861135) .nil) (nat_lit 64729) (nat_lit 6912216207) .nil) (nat_lit 64730) (nat_lit 6627003541) (.node (.node .nil (nat_lit 64731) (nat_lit 6631197845) .nil) (nat_lit 64732) (nat_lit 6635392149) .nil)) (nat_lit 64733) (nat_lit 6731861141) (.node (.node (.node .nil (nat_lit 64734) (nat_lit 6740249749) .nil) (nat_lit 64735) (nat_lit 6731861069) .nil) (nat_lit 64736) (nat_lit 6740249677) (.node (.node .nil (nat_lit 64737) (nat_lit 6731861073) .nil) (nat_lit 64738) (nat_lit 6740249681) .nil))) (nat_lit 64739) (nat_lit 6731861077) (.node (.node (.node (.node .nil (nat_lit 64740) (nat_lit 6740249685) .nil) (nat_lit 64741) (nat_lit 6731861079) .nil) (nat_lit 64742) (nat_lit 6740249687) (.node (.node .nil (nat_lit 64743) (nat_lit 6731861095) .nil) (nat_lit 64744) (nat_lit 6740249703) .nil)) (nat_lit 64745) (nat_lit 6731861097) (.node (.node (.node .nil (nat_lit 64746) (nat_lit 6740249705) .nil) (nat_lit 64747) (nat_lit 6727666823) .nil) (nat_lit 64748) (nat_lit 6731861127) (.node .nil (nat_lit 64749) (nat_lit 6731861129) .nil)))) (nat_lit 64750) (nat_lit 6731861133) (.node (.node (.node (.node (.node .nil (nat_lit 64751) (nat_lit 6740249741) .nil) (nat_lit 64752) (nat_lit 6731861141) .nil) (nat_lit 64753) (nat_lit 6740249749) (.node (.node .nil (nat_lit 64754) (nat_lit 14223289186520193) .nil) (nat_lit 64755) (nat_lit 14223289190714497) .nil)) (nat_lit 64756) (nat_lit 14223289194908801) (.node (.node (.node .nil (nat_lit 64757) (nat_lit 6748638319) .nil) (nat_lit 64758) (nat_lit 6752832623) .nil) (nat_lit 64759) (nat_lit 6748638323) (.node .nil (nat_lit 64760) (nat_lit 6752832627) .nil))) (nat_lit 64761) (nat_lit 6748638325) (.node (.node (.node (.node .nil (nat_lit 64762) (nat_lit 6752832629) .nil) (nat_lit 64763) (nat_lit 6748638311) .nil) (nat_lit 64764) (nat_lit 6752832615) (.node (.node .nil (nat_lit 64765) (nat_lit 6748638313) .nil) (nat_lit 64766) (nat_lit 6752832617) .nil)) (nat_lit 64767) (nat_lit 6748638299) (.node (.node (.node .nil (nat_lit 64768) (nat_lit 6752832603) .nil) (nat_lit 64769) (nat_lit 6748638297) .nil) (nat_lit 64770) (nat_lit 6752832601) (.node .nil (nat_lit 64771) (nat_lit 6748638301) .nil))))) (nat_lit 64772) (nat_lit 6752832605) (.node (.node (.node (.node (.node (.node .nil (nat_lit 64773) (nat_lit 6748638315) .nil) (nat_lit 64774) (nat_lit 6752832619) .nil) (nat_lit 64775) (nat_lit 6748638317) (.node (.node .nil (nat_lit 64776) (nat_lit 6752832621) .nil) (nat_lit 64777) (nat_lit 6627003497) .nil)) (nat_lit 64778) (nat_lit 6631197801) (.node (.node (.node .nil (nat_lit 64779) (nat_lit 6635392105) .nil) (nat_lit 64780) (nat_lit 6731861097) .nil) (nat_lit 64781) (nat_lit 6647975017) (.node (.node .nil (nat_lit 64782) (nat_lit 6647975015) .nil) (nat_lit 64783) (nat_lit 6647975019) .nil))) (nat_lit 64784) (nat_lit 6647975021) (.node (.node (.node (.node .nil (nat_lit 64785) (nat_lit 6748638319) .nil) (nat_lit 64786) (nat_lit 6752832623) .nil) (nat_lit 64787) (nat_lit 6748638323) (.node (.node .nil (nat_lit 64788) (nat_lit 6752832627) .nil) (nat_lit 64789) (nat_lit 6748638325) .nil)) (nat_lit 64790) (nat_lit 6752832629) (.node (.node (.node .nil (nat_lit 64791) (nat_lit 6748638311) .nil) (nat_lit 64792) (nat_lit 6752832615) .nil) (nat_lit 64793) (nat_lit 6748638313) (.node .nil (nat_lit 64794) (nat_lit 6752832617) .nil)))) (nat_lit 64795) (nat_lit 6748638299) (.node (.node (.node (.node (.node .nil (nat_lit 64796) (nat_lit 6752832603) .nil) (nat_lit 64797) (nat_lit 6748638297) .nil) (nat_lit 64798) (nat_lit 6752832601) (.node (.node .nil (nat_lit 64799) (nat_lit 6748638301) .nil) (nat_lit 64800) (nat_lit 6752832605) .nil)) (nat_lit 64801) (nat_lit 6748638315) (.node (.node (.node .nil (nat_lit 64802) (nat_lit 6752832619) .nil) (nat_lit 64803) (nat_lit 6748638317) .nil) (nat_lit 64804) (nat_lit 6752832621) (.node .nil (nat_lit 64805) (nat_lit 6627003497) .nil))) (nat_lit 64806) (nat_lit 6631197801) (.node (.node (.node (.node .nil (nat_lit 64807) (nat_lit 6635392105) .nil) (nat_lit 64808) (nat_lit 6731861097) .nil) (nat_lit 64809) (nat_lit 6647975017) (.node (.node .nil (nat_lit 64810) (nat_lit 6647975015) .nil) (nat_lit 64811) (nat_lit 6647975019) .nil)) (nat_lit 64812) (nat_lit 6647975021) (.node (.node (.node .nil (nat_lit 64813) (nat_lit 6627003497) .nil) (nat_lit 64814) (nat_lit 6631197801) .nil) (nat_lit 64815) (nat_lit 6635392105) (.node .nil (nat_lit 64816) (nat_lit 6731861097) .nil)))))

def decT100101 : Tree :=
  .node (.node (.node (.node (.node (.node (.node .nil (nat_lit 64818) (nat_lit 6740249705) .nil) (nat_lit 64819) (nat_lit 6731861103) .nil) (nat_lit 64820) (nat_lit 6627003495) (.node (.node .nil (nat_lit 64821) (nat_lit 6631197799) .nil) (nat_lit 64822) (nat_lit 6635392103) .nil)) (nat_lit 64823) (nat_lit 6627003497) (.node (.node (.node .nil (nat_lit 64824) (nat_lit 6631197801) .nil) (nat_lit 64825) (nat_lit 6635392105) .nil) (nat_lit 64826) (nat_lit 6731861103) (.node (.node .nil (nat_lit 64827) (nat_lit 6731861105) .nil) (nat_lit 64828) (nat_lit 6757026895) .nil))) (nat_lit 64829) (nat_lit 6757026895) (.node (.node (.node (.node .nil (nat_lit 64848) (nat_lit 14117735927647317) .nil) (nat_lit 64849) (nat_lit 13897833606286421) .nil) (nat_lit 64850) (nat_lit 13897833606286421) (.node (.node .nil (nat_lit 64851) (nat_lit 14117735931841621) .nil) (nat_lit 64852) (nat_lit 14117735936035925) .nil)) (nat_lit 64853) (nat_lit 13897833706949717) (.node (.node (.node .nil (nat_lit 64854) (nat_lit 13906629799971925) .nil) (nat_lit 64855) (nat_lit 13915425892994133) .nil) (nat_lit 64856) (nat_lit 13906629799971929) (.node .nil (nat_lit 64857) (nat_lit 13906629799971929) .nil)))) (nat_lit 64858) (nat_lit 14161716497615963) (.node (.node (.node (.node (.node .nil (nat_lit 64859) (nat_lit 14152920404593755) .nil) (nat_lit 64860) (nat_lit 13897833606286439) .nil) (nat_lit 64861) (nat_lit 13906629695114343) (.node (.node .nil (nat_lit 64862) (nat_lit 14152920299736167) .nil) (nat_lit 64863) (nat_lit 13906629799971943) .nil)) (nat_lit 64864) (nat_lit 13906629799971943) (.node (.node (.node .nil (nat_lit 64865) (nat_lit 13897833706949735) .nil) (nat_lit 64866) (nat_lit 14117736032504935) .nil) (nat_lit 64867) (nat_lit 14117736032504935) (.node .nil (nat_lit 64868) (nat_lit 13906629699308651) .nil))) (nat_lit 64869) (nat_lit 13906629699308651) (.node (.node (.node (.node .nil (nat_lit 64870) (nat_lit 14117736032504939) .nil) (nat_lit 64871) (nat_lit 14117735931841641) .nil) (nat_lit 64872) (nat_lit 14117735931841641) (.node (.node .nil (nat_lit 64873) (nat_lit 14161716392758377) .nil) (nat_lit 64874) (nat_lit 13915425892994153) .nil)) (nat_lit 64875) (nat_lit 13915425892994153) (.node (.node (.node .nil (nat_lit 64876) (nat_lit 14117736032504937) .nil) (nat_lit 64877) (nat_lit 14117736032504937) .nil) (nat_lit 64878) (nat_lit 14152920303930477) (.node .nil (nat_lit 64879) (nat_lit 14117735936035949) .nil))))) (nat_lit 64880) (nat_lit 14117735936035949) (.node (.node (.node (.node (.node (.node .nil (nat_lit 64881) (nat_lit 13906629799971951) .nil) (nat_lit 64882) (nat_lit 13906629799971951) .nil) (nat_lit 64883) (nat_lit 14117736032504943) (.node (.node .nil (nat_lit 64884) (nat_lit 14161716497615983) .nil) (nat_lit 64885) (nat_lit 14117735927647347) .nil)) (nat_lit 64886) (nat_lit 14117736032504947) (.node (.node (.node .nil (nat_lit 64887) (nat_lit 14117736032504947) .nil) (nat_lit 64888) (nat_lit 14152920404593779) .nil) (nat_lit 64889) (nat_lit 14117736032504949) (.node .nil (nat_lit 64890) (nat_lit 14161716497615989) .nil))) (nat_lit 64891) (nat_lit 14152920404593781) (.node (.node (.node (.node .nil (nat_lit 64892) (nat_lit 14117735936035971) .nil) (nat_lit 64893) (nat_lit 14117735936035971) .nil) (nat_lit 64894) (nat_lit 13906629799971973) (.node (.node .nil (nat_lit 64895) (nat_lit 14117736032504965) .nil) (nat_lit 64896) (nat_lit 14117735931841673) .nil)) (nat_lit 64897) (nat_lit 14161716396952713) (.node (.node (.node .nil (nat_lit 64898) (nat_lit 14152920303930505) .nil) (nat_lit 64899) (nat_lit 13897833602092169) .nil) (nat_lit 64900) (nat_lit 13897833602092169) (.node .nil (nat_lit 64901) (nat_lit 14117735936035977) .nil)))) (nat_lit 64902) (nat_lit 14117735936035977) (.node (.node (.node (.node (.node .nil (nat_lit 64903) (nat_lit 13906629799971977) .nil) (nat_lit 64904) (nat_lit 13906629799971977) .nil) (nat_lit 64905) (nat_lit 13897833606286475) (.node (.node .nil (nat_lit 64906) (nat_lit 14117735931841675) .nil) (nat_lit 64907) (nat_lit 14161716396952715) .nil)) (nat_lit 64908) (nat_lit 13906629695114379) (.node (.node (.node .nil (nat_lit 64909) (nat_lit 14117735927647371) .nil) (nat_lit 64910) (nat_lit 13897833610480779) .nil) (nat_lit 64911) (nat_lit 14117735936035979) (.node .nil (nat_lit 64914) (nat_lit 13915425788136587) .nil))) (nat_lit 64915) (nat_lit 13897833706949775) (.node (.node (.node (.node .nil (nat_lit 64916) (nat_lit 14117736032504975) .nil) (nat_lit 64917) (nat_lit 14117735931841677) .nil) (nat_lit 64918) (nat_lit 14152920303930509) (.node (.node .nil (nat_lit 64919) (nat_lit 14117735927647373) .nil) (nat_lit 64920) (nat_lit 14117735927647373) .nil)) (nat_lit 64921) (nat_lit 14152920299736205) (.node (.node (.node .nil (nat_lit 64922) (nat_lit 14161716497616013) .nil) (nat_lit 64923) (nat_lit 14152920404593805) .nil) (nat_lit 64924) (nat_lit 14117736032504981) (.node .nil (nat_lit 64925) (nat_lit 14117736032504981) .nil)))))

def decT100110 : Tree :=
  .node (.node (.node (.node (.node (.node (.node .nil (nat_lit 64927) (nat_lit 14161716392758357) .nil) (nat_lit 64928) (nat_lit 14152920299736149) .nil) (nat_lit 64929) (nat_lit 14161716401146965) (.node (.node .nil (nat_lit 64930) (nat_lit 14152920308124757) .nil) (nat_lit 64931) (nat_lit 14161716497615957) .nil)) (nat_lit 64932) (nat_lit 14152920404593749) (.node (.node (.node .nil (nat_lit 64933) (nat_lit 14161716497615961) .nil) (nat_lit 64934) (nat_lit 14152920303930457) .nil) (nat_lit 64935) (nat_lit 14152920404593753) (.node (.node .nil (nat_lit 64936) (nat_lit 14152920308124775) .nil) (nat_lit 64937) (nat_lit 14161716396952683) .nil))) (nat_lit 64938) (nat_lit 14161716396952681) (.node (.node (.node (.node .nil (nat_lit 64939) (nat_lit 14161716396952685) .nil) (nat_lit 64940) (nat_lit 14161716392758409) .nil) (nat_lit 64941) (nat_lit 14161716497616009) (.node (.node .nil (nat_lit 64942) (nat_lit 14161716396952725) .nil) (nat_lit 64943) (nat_lit 14161716392758421) .nil)) (nat_lit 64944) (nat_lit 14161716497616021) (.node (.node (.node .nil (nat_lit 64945) (nat_lit 14161716497616011) .nil) (nat_lit 64946) (nat_lit 14161716497616005) .nil) (nat_lit 64947) (nat_lit 14161716396952717) (.node .nil (nat_lit 64948) (nat_lit 13906629799971973) .nil)))) (nat_lit 64949) (nat_lit 14117735931841673) (.node (.node (.node (.node (.node .nil (nat_lit 64950) (nat_lit 14161716497615987) .nil) (nat_lit 64951) (nat_lit 14161716497616007) .nil) (nat_lit 64952) (nat_lit 13906629695114381) (.node (.node .nil (nat_lit 64953) (nat_lit 14161716401147019) .nil) (nat_lit 64954) (nat_lit 14117735927647369) .nil)) (nat_lit 64955) (nat_lit 14117736032504967) (.node (.node (.node .nil (nat_lit 64956) (nat_lit 14117735927647369) .nil) (nat_lit 64957) (nat_lit 13906629695114381) .nil) (nat_lit 64958) (nat_lit 14161716396952665) (.node .nil (nat_lit 64959) (nat_lit 14161716392758363) .nil))) (nat_lit 64960) (nat_lit 14161716392758411) (.node (.node (.node (.node .nil (nat_lit 64961) (nat_lit 14161716497616003) .nil) (nat_lit 64962) (nat_lit 14161716396952657) .nil) (nat_lit 64963) (nat_lit 14117736032504967) (.node (.node .nil (nat_lit 64964) (nat_lit 14117735927647347) .nil) (nat_lit 64965) (nat_lit 14117736032504939) .nil)) (nat_lit 64966) (nat_lit 14161716401146983) (.node (.node (.node .nil (nat_lit 64967) (nat_lit 14161716392758413) .nil) (nat_lit 65008) (nat_lit 15357985144441963) .nil) (nat_lit 65009) (nat_lit 15357985144441989) (.node .nil (nat_lit 65010) (nat_lit 29643931835391184735311) .nil))))) (nat_lit 65011) (nat_lit 29238103219478965783631) (.node (.node (.node (.node (.node (.node .nil (nat_lit 65012) (nat_lit 29201209986418152049803) .nil) (nat_lit 65013) (nat_lit 29607038250486742387819) .nil) (nat_lit 65014) (nat_lit 29588591638354356866147) (.node (.node .nil (nat_lit 65015) (nat_lit 29643931888167742868595) .nil) (nat_lit 65016) (nat_lit 29607038347243694328977) .nil)) (nat_lit 65017) (nat_lit 14152920400399467) (.node (.node (.node .nil (nat_lit 65018) (nat_lit 942353160407033252656884770279861924117942372679924542689541864291383887675872336599416322996611464030630972523) .nil) (nat_lit 65019) (nat_lit 573397033451205432050368864991476303225090477145) .nil) (nat_lit 65020) (nat_lit 29588591348083928861795) (.node (.node .nil (nat_lit 65040) (nat_lit 89) .nil) (nat_lit 65041) (nat_lit 24579) .nil))) (nat_lit 65042) (nat_lit 24581) (.node (.node (.node (.node .nil (nat_lit 65043) (nat_lit 117) .nil) (nat_lit 65044) (nat_lit 119) .nil) (nat_lit 65045) (nat_lit 67) (.node (.node .nil (nat_lit 65046) (nat_lit 127) .nil) (nat_lit 65047) (nat_lit 24621) .nil)) (nat_lit 65048) (nat_lit 24623) (.node (.node (.node .nil (nat_lit 65049) (nat_lit 16461) .nil) (nat_lit 65072) (nat_lit 16459) .nil) (nat_lit 65073) (nat_lit 16425) (.node .nil (nat_lit 65074) (nat_lit 16423) .nil)))) (nat_lit 65075) (nat_lit 191) (.node (.node (.node (.node (.node .nil (nat_lit 65076) (nat_lit 191) .nil) (nat_lit 65077) (nat_lit 81) .nil) (nat_lit 65078) (nat_lit 83) (.node (.node .nil (nat_lit 65079) (nat_lit 247) .nil) (nat_lit 65080) (nat_lit 251) .nil)) (nat_lit 65081) (nat_lit 24617) (.node (.node (.node .nil (nat_lit 65082) (nat_lit 24619) .nil) (nat_lit 65083) (nat_lit 24609) .nil) (nat_lit 65084) (nat_lit 24611) (.node .nil (nat_lit 65085) (nat_lit 24597) .nil))) (nat_lit 65086) (nat_lit 24599) (.node (.node (.node (.node .nil (nat_lit 65087) (nat_lit 24593) .nil) (nat_lit 65088) (nat_lit 24595) .nil) (nat_lit 65089) (nat_lit 24601) (.node (.node .nil (nat_lit 65090) (nat_lit 24603) .nil) (nat_lit 65091) (nat_lit 24605) .nil)) (nat_lit 65092) (nat_lit 24607) (.node (.node (.node .nil (nat_lit 65095) (nat_lit 183) .nil) (nat_lit 65096) (nat_lit 187) .nil) (nat_lit 65097) (nat_lit 16509) (.node .nil (nat_lit 65098) (nat_lit 16509) .nil)))))

def decT100111 : Tree :=
  .node (.node (.node (.node (.node (.node (.node .nil (nat_lit 65100) (nat_lit 16509) .nil) (nat_lit 65101) (nat_lit 191) .nil) (nat_lit 65102) (nat_lit 191) (.node (.node .nil (nat_lit 65103) (nat_lit 191) .nil) (nat_lit 65104) (nat_lit 89) .nil)) (nat_lit 65105) (nat_lit 24579) (.node (.node (.node .nil (nat_lit 65106) (nat_lit 93) .nil) (nat_lit 65108) (nat_lit 119) .nil) (nat_lit 65109) (nat_lit 117) (.node (.node .nil (nat_lit 65110) (nat_lit 127) .nil) (nat_lit 65111) (nat_lit 67) .nil))) (nat_lit 65112) (nat_lit 16425) (.node (.node (.node (.node .nil (nat_lit 65113) (nat_lit 81) .nil) (nat_lit 65114) (nat_lit 83) .nil) (nat_lit 65115) (nat_lit 247) (.node (.node .nil (nat_lit 65116) (nat_lit 251) .nil) (nat_lit 65117) (nat_lit 24617) .nil)) (nat_lit 65118) (nat_lit 24619) (.node (.node (.node .nil (nat_lit 65119) (nat_lit 71) .nil) (nat_lit 65120) (nat_lit 77) .nil) (nat_lit 65121) (nat_lit 85) (.node .nil (nat_lit 65122) (nat_lit 87) .nil)))) (nat_lit 65123) (nat_lit 91) (.node (.node (.node (.node (.node .nil (nat_lit 65124) (nat_lit 121) .nil) (nat_lit 65125) (nat_lit 125) .nil) (nat_lit 65126) (nat_lit 123) (.node (.node .nil (nat_lit 65128) (nat_lit 185) .nil) (nat_lit 65129) (nat_lit 73) .nil)) (nat_lit 65130) (nat_lit 75) (.node (.node (.node .nil (nat_lit 65131) (nat_lit 129) .nil) (nat_lit 65136) (nat_lit 6757023809) .nil) (nat_lit 65137) (nat_lit 6757026945) (.node .nil (nat_lit 65138) (nat_lit 6761218113) .nil))) (nat_lit 65140) (nat_lit 6765412417) (.node (.node (.node (.node .nil (nat_lit 65142) (nat_lit 6769606721) .nil) (nat_lit 65143) (nat_lit 6769609857) .nil) (nat_lit 65144) (nat_lit 6773801025) (.node (.node .nil (nat_lit 65145) (nat_lit 6773804161) .nil) (nat_lit 65146) (nat_lit 6777995329) .nil)) (nat_lit 65147) (nat_lit 6777998465) (.node (.node (.node .nil (nat_lit 65148) (nat_lit 6782189633) .nil) (nat_lit 65149) (nat_lit 6782192769) .nil) (nat_lit 65150) (nat_lit 6786383937) (.node .nil (nat_lit 65151) (nat_lit 6786387073) .nil))))) (nat_lit 65152) (nat_lit 3139) (.node (.node (.node (.node (.node (.node .nil (nat_lit 65153) (nat_lit 3141) .nil) (nat_lit 65154) (nat_lit 3141) .nil) (nat_lit 65155) (nat_lit 3143) (.node (.node .nil (nat_lit 65156) (nat_lit 3143) .nil) (nat_lit 65157) (nat_lit 3145) .nil)) (nat_lit 65158) (nat_lit 3145) (.node (.node (.node .nil (nat_lit 65159) (nat_lit 3147) .nil) (nat_lit 65160) (nat_lit 3147) .nil) (nat_lit 65161) (nat_lit 3149) (.node .nil (nat_lit 65162) (nat_lit 3149) .nil))) (nat_lit 65163) (nat_lit 3149) (.node (.node (.node (.node .nil (nat_lit 65164) (nat_lit 3149) .nil) (nat_lit 65165) (nat_lit 3151) .nil) (nat_lit 65166) (nat_lit 3151) (.node (.node .nil (nat_lit 65167) (nat_lit 3153) .nil) (nat_lit 65168) (nat_lit 3153) .nil)) (nat_lit 65169) (nat_lit 3153) (.node (.node (.node .nil (nat_lit 65170) (nat_lit 3153) .nil) (nat_lit 65171) (nat_lit 3155) .nil) (nat_lit 65172) (nat_lit 3155) (.node .nil (nat_lit 65173) (nat_lit 3157) .nil)))) (nat_lit 65174) (nat_lit 3157) (.node (.node (.node (.node (.node .nil (nat_lit 65175) (nat_lit 3157) .nil) (nat_lit 65176) (nat_lit 3157) .nil) (nat_lit 65177) (nat_lit 3159) (.node (.node .nil (nat_lit 65178) (nat_lit 3159) .nil) (nat_lit 65179) (nat_lit 3159) .nil)) (nat_lit 65180) (nat_lit 3159) (.node (.node (.node .nil (nat_lit 65181) (nat_lit 3161) .nil) (nat_lit 65182) (nat_lit 3161) .nil) (nat_lit 65183) (nat_lit 3161) (.node .nil (nat_lit 65184) (nat_lit 3161) .nil))) (nat_lit 65185) (nat_lit 3163) (.node (.node (.node (.node .nil (nat_lit 65186) (nat_lit 3163) .nil) (nat_lit 65187) (nat_lit 3163) .nil) (nat_lit 65188) (nat_lit 3163) (.node (.node .nil (nat_lit 65189) (nat_lit 3165) .nil) (nat_lit 65190) (nat_lit 3165) .nil)) (nat_lit 65191) (nat_lit 3165) (.node (.node (.node .nil (nat_lit 65192) (nat_lit 3165) .nil) (nat_lit 65193) (nat_lit 3167) .nil) (nat_lit 65194) (nat_lit 3167) (.node .nil (nat_lit 65195) (nat_lit 3169) .nil)))))

def decT101000 : Tree :=
  .node (.node (.node (.node (.node (.node (.node .nil (nat_lit 65197) (nat_lit 3171) .nil) (nat_lit 65198) (nat_lit 3171) .nil) (nat_lit 65199) (nat_lit 3173) (.node (.node .nil (nat_lit 65200) (nat_lit 3173) .nil) (nat_lit 65201) (nat_lit 3175) .nil)) (nat_lit 65202) (nat_lit 3175) (.node (.node (.node .nil (nat_lit 65203) (nat_lit 3175) .nil) (nat_lit 65204) (nat_lit 3175) .nil) (nat_lit 65205) (nat_lit 3177) (.node (.node .nil (nat_lit 65206) (nat_lit 3177) .nil) (nat_lit 65207) (nat_lit 3177) .nil))) (nat_lit 65208) (nat_lit 3177) (.node (.node (.node (.node .nil (nat_lit 65209) (nat_lit 3179) .nil) (nat_lit 65210) (nat_lit 3179) .nil) (nat_lit 65211) (nat_lit 3179) (.node (.node .nil (nat_lit 65212) (nat_lit 3179) .nil) (nat_lit 65213) (nat_lit 3181) .nil)) (nat_lit 65214) (nat_lit 3181) (.node (.node (.node .nil (nat_lit 65215) (nat_lit 3181) .nil) (nat_lit 65216) (nat_lit 3181) .nil) (nat_lit 65217) (nat_lit 3183) (.node .nil (nat_lit 65218) (nat_lit 3183) .nil)))) (nat_lit 65219) (nat_lit 3183) (.node (.node (.node (.node (.node .nil (nat_lit 65220) (nat_lit 3183) .nil) (nat_lit 65221) (nat_lit 3185) .nil) (nat_lit 65222) (nat_lit 3185) (.node (.node .nil (nat_lit 65223) (nat_lit 3185) .nil) (nat_lit 65224) (nat_lit 3185) .nil)) (nat_lit 65225) (nat_lit 3187) (.node (.node (.node .nil (nat_lit 65226) (nat_lit 3187) .nil) (nat_lit 65227) (nat_lit 3187) .nil) (nat_lit 65228) (nat_lit 3187) (.node .nil (nat_lit 65229) (nat_lit 3189) .nil))) (nat_lit 65230) (nat_lit 3189) (.node (.node (.node (.node .nil (nat_lit 65231) (nat_lit 3189) .nil) (nat_lit 65232) (nat_lit 3189) .nil) (nat_lit 65233) (nat_lit 3203) (.node (.node .nil (nat_lit 65234) (nat_lit 3203) .nil) (nat_lit 65235) (nat_lit 3203) .nil)) (nat_lit 65236) (nat_lit 3203) (.node (.node (.node .nil (nat_lit 65237) (nat_lit 3205) .nil) (nat_lit 65238) (nat_lit 3205) .nil) (nat_lit 65239) (nat_lit 3205) (.node .nil (nat_lit 65240) (nat_lit 3205) .nil))))) (nat_lit 65241) (nat_lit 3207) (.node (.node (.node (.node (.node (.node .nil (nat_lit 65242) (nat_lit 3207) .nil) (nat_lit 65243) (nat_lit 3207) .nil) (nat_lit 65244) (nat_lit 3207) (.node (.node .nil (nat_lit 65245) (nat_lit 3209) .nil) (nat_lit 65246) (nat_lit 3209) .nil)) (nat_lit 65247) (nat_lit 3209) (.node (.node (.node .nil (nat_lit 65248) (nat_lit 3209) .nil) (nat_lit 65249) (nat_lit 3211) .nil) (nat_lit 65250) (nat_lit 3211) (.node (.node .nil (nat_lit 65251) (nat_lit 3211) .nil) (nat_lit 65252) (nat_lit 3211) .nil))) (nat_lit 65253) (nat_lit 3213) (.node (.node (.node (.node .nil (nat_lit 65254) (nat_lit 3213) .nil) (nat_lit 65255) (nat_lit 3213) .nil) (nat_lit 65256) (nat_lit 3213) (.node (.node .nil (nat_lit 65257) (nat_lit 3215) .nil) (nat_lit 65258) (nat_lit 3215) .nil)) (nat_lit 65259) (nat_lit 3215) (.node (.node (.node .nil (nat_lit 65260) (nat_lit 3215) .nil) (nat_lit 65261) (nat_lit 3217) .nil) (nat_lit 65262) (nat_lit 3217) (.node .nil (nat_lit 65263) (nat_lit 3219) .nil)))) (nat_lit 65264) (nat_lit 3219) (.node (.node (.node (.node (.node .nil (nat_lit 65265) (nat_lit 3221) .nil) (nat_lit 65266) (nat_lit 3221) .nil) (nat_lit 65267) (nat_lit 3221) (.node (.node .nil (nat_lit 65268) (nat_lit 3221) .nil) (nat_lit 65269) (nat_lit 6585060489) .nil)) (nat_lit 65270) (nat_lit 6585060489) (.node (.node (.node .nil (nat_lit 65271) (nat_lit 6589254793) .nil) (nat_lit 65272) (nat_lit 6589254793) .nil) (nat_lit 65273) (nat_lit 6597643401) (.node .nil (nat_lit 65274) (nat_lit 6597643401) .nil))) (nat_lit 65275) (nat_lit 6606032009) (.node (.node (.node (.node .nil (nat_lit 65276) (nat_lit 6606032009) .nil) (nat_lit 65281) (nat_lit 67) .nil) (nat_lit 65282) (nat_lit 69) (.node (.node .nil (nat_lit 65283) (nat_lit 71) .nil) (nat_lit 65284) (nat_lit 73) .nil)) (nat_lit 65285) (nat_lit 75) (.node (.node (.node .nil (nat_lit 65286) (nat_lit 77) .nil) (nat_lit 65287) (nat_lit 79) .nil) (nat_lit 65288) (nat_lit 81) (.node .nil (nat_lit 65289) (nat_lit 83) .nil)))))

def decT101001 : Tree :=
  .node (.node (.node (.node (.node (.node (.node .nil (nat_lit 65291) (nat_lit 87) .nil) (nat_lit 65292) (nat_lit 89) .nil) (nat_lit 65293) (nat_lit 91) (.node (.node .nil (nat_lit 65294) (nat_lit 93) .nil) (nat_lit 65295) (nat_lit 95) .nil)) (nat_lit 65296) (nat_lit 97) (.node (.node (.node .nil (nat_lit 65297) (nat_lit 99) .nil) (nat_lit 65298) (nat_lit 101) .nil) (nat_lit 65299) (nat_lit 103) (.node (.node .nil (nat_lit 65300) (nat_lit 105) .nil) (nat_lit 65301) (nat_lit 107) .nil))) (nat_lit 65302) (nat_lit 109) (.node (.node (.node (.node .nil (nat_lit 65303) (nat_lit 111) .nil) (nat_lit 65304) (nat_lit 113) .nil) (nat_lit 65305) (nat_lit 115) (.node (.node .nil (nat_lit 65306) (nat_lit 117) .nil) (nat_lit 65307) (nat_lit 119) .nil)) (nat_lit 65308) (nat_lit 121) (.node (.node (.node .nil (nat_lit 65309) (nat_lit 123) .nil) (nat_lit 65310) (nat_lit 125) .nil) (nat_lit 65311) (nat_lit 127) (.node .nil (nat_lit 65312) (nat_lit 129) .nil)))) (nat_lit 65313) (nat_lit 131) (.node (.node (.node (.node (.node .nil (nat_lit 65314) (nat_lit 133) .nil) (nat_lit 65315) (nat_lit 135) .nil) (nat_lit 65316) (nat_lit 137) (.node (.node .nil (nat_lit 65317) (nat_lit 139) .nil) (nat_lit 65318) (nat_lit 141) .nil)) (nat_lit 65319) (nat_lit 143) (.node (.node (.node .nil (nat_lit 65320) (nat_lit 145) .nil) (nat_lit 65321) (nat_lit 147) .nil) (nat_lit 65322) (nat_lit 149) (.node .nil (nat_lit 65323) (nat_lit 151) .nil))) (nat_lit 65324) (nat_lit 153) (.node (.node (.node (.node .nil (nat_lit 65325) (nat_lit 155) .nil) (nat_lit 65326) (nat_lit 157) .nil) (nat_lit 65327) (nat_lit 159) (.node (.node .nil (nat_lit 65328) (nat_lit 161) .nil) (nat_lit 65329) (nat_lit 163) .nil)) (nat_lit 65330) (nat_lit 165) (.node (.node (.node .nil (nat_lit 65331) (nat_lit 167) .nil) (nat_lit 65332) (nat_lit 169) .nil) (nat_lit 65333) (nat_lit 171) (.node .nil (nat_lit 65334) (nat_lit 173) .nil))))) (nat_lit 65335) (nat_lit 175) (.node (.node (.node (.node (.node (.node .nil (nat_lit 65336) (nat_lit 177) .nil) (nat_lit 65337) (nat_lit 179) .nil) (nat_lit 65338) (nat_lit 181) (.node (.node .nil (nat_lit 65339) (nat_lit 183) .nil) (nat_lit 65340) (nat_lit 185) .nil)) (nat_lit 65341) (nat_lit 187) (.node (.node (.node .nil (nat_lit 65342) (nat_lit 189) .nil) (nat_lit 65343) (nat_lit 191) .nil) (nat_lit 65344) (nat_lit 193) (.node .nil (nat_lit 65345) (nat_lit 195) .nil))) (nat_lit 65346) (nat_lit 197) (.node (.node (.node (.node .nil (nat_lit 65347) (nat_lit 199) .nil) (nat_lit 65348) (nat_lit 201) .nil) (nat_lit 65349) (nat_lit 203) (.node (.node .nil (nat_lit 65350) (nat_lit 205) .nil) (nat_lit 65351) (nat_lit 207) .nil)) (nat_lit 65352) (nat_lit 209) (.node (.node (.node .nil (nat_lit 65353) (nat_lit 211) .nil) (nat_lit 65354) (nat_lit 213) .nil) (nat_lit 65355) (nat_lit 215) (.node .nil (nat_lit 65356) (nat_lit 217) .nil)))) (nat_lit 65357) (nat_lit 219) (.node (.node (.node (.node (.node .nil (nat_lit 65358) (nat_lit 221) .nil) (nat_lit 65359) (nat_lit 223) .nil) (nat_lit 65360) (nat_lit 225) (.node (.node .nil (nat_lit 65361) (nat_lit 227) .nil) (nat_lit 65362) (nat_lit 229) .nil)) (nat_lit 65363) (nat_lit 231) (.node (.node (.node .nil (nat_lit 65364) (nat_lit 233) .nil) (nat_lit 65365) (nat_lit 235) .nil) (nat_lit 65366) (nat_lit 237) (.node .nil (nat_lit 65367) (nat_lit 239) .nil))) (nat_lit 65368) (nat_lit 241) (.node (.node (.node (.node .nil (nat_lit 65369) (nat_lit 243) .nil) (nat_lit 65370) (nat_lit 245) .nil) (nat_lit 65371) (nat_lit 247) (.node (.node .nil (nat_lit 65372) (nat_lit 249) .nil) (nat_lit 65373) (nat_lit 251) .nil)) (nat_lit 65374) (nat_lit 253) (.node (.node (.node .nil (nat_lit 65375) (nat_lit 21259) .nil) (nat_lit 65376) (nat_lit 21261) .nil) (nat_lit 65377) (nat_lit 24581) (.node .nil (nat_lit 65378) (nat_lit 24601) .nil)))))

def decT101010 : Tree :=
  .node (.node (.node (.node (.node (.node (.node .nil (nat_lit 65380) (nat_lit 24579) .nil) (nat_lit 65381) (nat_lit 25079) .nil) (nat_lit 65382) (nat_lit 25061) (.node (.node .nil (nat_lit 65383) (nat_lit 24899) .nil) (nat_lit 65384) (nat_lit 24903) .nil)) (nat_lit 65385) (nat_lit 24907) (.node (.node (.node .nil (nat_lit 65386) (nat_lit 24911) .nil) (nat_lit 65387) (nat_lit 24915) .nil) (nat_lit 65388) (nat_lit 25031) (.node (.node .nil (nat_lit 65389) (nat_lit 25035) .nil) (nat_lit 65390) (nat_lit 25039) .nil))) (nat_lit 65391) (nat_lit 24967) (.node (.node (.node (.node .nil (nat_lit 65392) (nat_lit 25081) .nil) (nat_lit 65393) (nat_lit 24901) .nil) (nat_lit 65394) (nat_lit 24905) (.node (.node .nil (nat_lit 65395) (nat_lit 24909) .nil) (nat_lit 65396) (nat_lit 24913) .nil)) (nat_lit 65397) (nat_lit 24917) (.node (.node (.node .nil (nat_lit 65398) (nat_lit 24919) .nil) (nat_lit 65399) (nat_lit 24923) .nil) (nat_lit 65400) (nat_lit 24927) (.node .nil (nat_lit 65401) (nat_lit 24931) .nil)))) (nat_lit 65402) (nat_lit 24935) (.node (.node (.node (.node (.node .nil (nat_lit 65403) (nat_lit 24939) .nil) (nat_lit 65404) (nat_lit 24943) .nil) (nat_lit 65405) (nat_lit 24947) (.node (.node .nil (nat_lit 65406) (nat_lit 24951) .nil) (nat_lit 65407) (nat_lit 24955) .nil)) (nat_lit 65408) (nat_lit 24959) (.node (.node (.node .nil (nat_lit 65409) (nat_lit 24963) .nil) (nat_lit 65410) (nat_lit 24969) .nil) (nat_lit 65411) (nat_lit 24973) (.node .nil (nat_lit 65412) (nat_lit 24977) .nil))) (nat_lit 65413) (nat_lit 24981) (.node (.node (.node (.node .nil (nat_lit 65414) (nat_lit 24983) .nil) (nat_lit 65415) (nat_lit 24985) .nil) (nat_lit 65416) (nat_lit 24987) (.node (.node .nil (nat_lit 65417) (nat_lit 24989) .nil) (nat_lit 65418) (nat_lit 24991) .nil)) (nat_lit 65419) (nat_lit 24997) (.node (.node (.node .nil (nat_lit 65420) (nat_lit 25003) .nil) (nat_lit 65421) (nat_lit 25009) .nil) (nat_lit 65422) (nat_lit 25015) (.node .nil (nat_lit 65423) (nat_lit 25021) .nil))))) (nat_lit 65424) (nat_lit 25023) (.node (.node (.node (.node (.node (.node .nil (nat_lit 65425) (nat_lit 25025) .nil) (nat_lit 65426) (nat_lit 25027) .nil) (nat_lit 65427) (nat_lit 25029) (.node (.node .nil (nat_lit 65428) (nat_lit 25033) .nil) (nat_lit 65429) (nat_lit 25037) .nil)) (nat_lit 65430) (nat_lit 25041) (.node (.node (.node .nil (nat_lit 65431) (nat_lit 25043) .nil) (nat_lit 65432) (nat_lit 25045) .nil) (nat_lit 65433) (nat_lit 25047) (.node (.node .nil (nat_lit 65434) (nat_lit 25049) .nil) (nat_lit 65435) (nat_lit 25051) .nil))) (nat_lit 65436) (nat_lit 25055) (.node (.node (.node (.node .nil (nat_lit 65437) (nat_lit 25063) .nil) (nat_lit 65438) (nat_lit 24883) .nil) (nat_lit 65439) (nat_lit 24885) (.node (.node .nil (nat_lit 65440) (nat_lit 25289) .nil) (nat_lit 65441) (nat_lit 25187) .nil)) (nat_lit 65442) (nat_lit 25189) (.node (.node (.node .nil (nat_lit 65443) (nat_lit 25191) .nil) (nat_lit 65444) (nat_lit 25193) .nil) (nat_lit 65445) (nat_lit 25195) (.node .nil (nat_lit 65446) (nat_lit 25197) .nil)))) (nat_lit 65447) (nat_lit 25199) (.node (.node (.node (.node (.node .nil (nat_lit 65448) (nat_lit 25201) .nil) (nat_lit 65449) (nat_lit 25203) .nil) (nat_lit 65450) (nat_lit 25205) (.node (.node .nil (nat_lit 65451) (nat_lit 25207) .nil) (nat_lit 65452) (nat_lit 25209) .nil)) (nat_lit 65453) (nat_lit 25211) (.node (.node (.node .nil (nat_lit 65454) (nat_lit 25213) .nil) (nat_lit 65455) (nat_lit 25215) .nil) (nat_lit 65456) (nat_lit 25217) (.node .nil (nat_lit 65457) (nat_lit 25219) .nil))) (nat_lit 65458) (nat_lit 25221) (.node (.node (.node (.node .nil (nat_lit 65459) (nat_lit 25223) .nil) (nat_lit 65460) (nat_lit 25225) .nil) (nat_lit 65461) (nat_lit 25227) (.node (.node .nil (nat_lit 65462) (nat_lit 25229) .nil) (nat_lit 65463) (nat_lit 25231) .nil)) (nat_lit 65464) (nat_lit 25233) (.node (.node (.node .nil (nat_lit 65465) (nat_lit 25235) .nil) (nat_lit 65466) (nat_lit 25237) .nil) (nat_lit 65467) (nat_lit 25239) (.node .nil (nat_lit 65468) (nat_lit 25241) .nil)))))

def decT101011 : Tree :=
  .node (.node (.node (.node (.node (.node (.node .nil (nat_lit 65470) (nat_lit 25245) .nil) (nat_lit 65474) (nat_lit 25247) .nil) (nat_lit 65475) (nat_lit 25249) (.node (.node .nil (nat_lit 65476) (nat_lit 25251) .nil) (nat_lit 65477) (nat_lit 25253) .nil)) (nat_lit 65478) (nat_lit 25255) (.node (.node (.node .nil (nat_lit 65479) (nat_lit 25257) .nil) (nat_lit 65482) (nat_lit 25259) .nil) (nat_lit 65483) (nat_lit 25261) (.node (.node .nil (nat_lit 65484) (nat_lit 25263) .nil) (nat_lit 65485) (nat_lit 25265) .nil))) (nat_lit 65486) (nat_lit 25267) (.node (.node (.node (.node .nil (nat_lit 65487) (nat_lit 25269) .nil) (nat_lit 65490) (nat_lit 25271) .nil) (nat_lit 65491) (nat_lit 25273) (.node (.node .nil (nat_lit 65492) (nat_lit 25275) .nil) (nat_lit 65493) (nat_lit 25277) .nil)) (nat_lit 65494) (nat_lit 25279) (.node (.node (.node .nil (nat_lit 65495) (nat_lit 25281) .nil) (nat_lit 65498) (nat_lit 25283) .nil) (nat_lit 65499) (nat_lit 25285) (.node .nil (nat_lit 65500) (nat_lit 25287) .nil)))) (nat_lit 65504) (nat_lit 325) (.node (.node (.node (.node (.node .nil (nat_lit 65505) (nat_lit 327) .nil) (nat_lit 65506) (nat_lit 345) .nil) (nat_lit 65507) (nat_lit 351) (.node (.node .nil (nat_lit 65508) (nat_lit 333) .nil) (nat_lit 65509) (nat_lit 331) .nil)) (nat_lit 65510) (nat_lit 16723) (.node (.node (.node .nil (nat_lit 65512) (nat_lit 18949) .nil) (nat_lit 65513) (nat_lit 17185) .nil) (nat_lit 65514) (nat_lit 17187) (.node .nil (nat_lit 65515) (nat_lit 17189) .nil))) (nat_lit 65516) (nat_lit 17191) (.node (.node (.node (.node .nil (nat_lit 65517) (nat_lit 19265) .nil) (nat_lit 65518) (nat_lit 19351) .nil) (nat_lit 69786) (nat_lit 292838056242) (.node (.node .nil (nat_lit 69788) (nat_lit 292838056246) .nil) (nat_lit 69803) (nat_lit 292838056266) .nil)) (nat_lit 69934) (nat_lit 293295235682) (.node (.node (.node .nil (nat_lit 69935) (nat_lit 293295235684) .nil) (nat_lit 70475) (nat_lit 295539189390) .nil) (nat_lit 70476) (nat_lit 295644046990) (.node .nil (nat_lit 70843) (nat_lit 297133025650) .nil))))) (nat_lit 70844) (nat_lit 297091082610) (.node (.node (.node (.node (.node (.node .nil (nat_lit 70846) (nat_lit 297145608562) .nil) (nat_lit 71098) (nat_lit 298160630640) .nil) (nat_lit 71099) (nat_lit 298160630642) (.node (.node .nil (nat_lit 119134) (nat_lit 499713811118) .nil) (nat_lit 119135) (nat_lit 499713811120) .nil)) (nat_lit 119136) (nat_lit 499751559870) (.node (.node (.node .nil (nat_lit 119137) (nat_lit 499755754174) .nil) (nat_lit 119138) (nat_lit 499759948478) .nil) (nat_lit 119139) (nat_lit 499764142782) (.node .nil (nat_lit 119140) (nat_lit 499768337086) .nil))) (nat_lit 119227) (nat_lit 499713811314) (.node (.node (.node (.node .nil (nat_lit 119228) (nat_lit 499713811316) .nil) (nat_lit 119229) (nat_lit 499751560054) .nil) (nat_lit 119230) (nat_lit 499751560056) (.node (.node .nil (nat_lit 119231) (nat_lit 499755754358) .nil) (nat_lit 119232) (nat_lit 499755754360) .nil)) (nat_lit 119808) (nat_lit 131) (.node (.node (.node .nil (nat_lit 119809) (nat_lit 133) .nil) (nat_lit 119810) (nat_lit 135) .nil) (nat_lit 119811) (nat_lit 137) (.node .nil (nat_lit 119812) (nat_lit 139) .nil)))) (nat_lit 119813) (nat_lit 141) (.node (.node (.node (.node (.node .nil (nat_lit 119814) (nat_lit 143) .nil) (nat_lit 119815) (nat_lit 145) .nil) (nat_lit 119816) (nat_lit 147) (.node (.node .nil (nat_lit 119817) (nat_lit 149) .nil) (nat_lit 119818) (nat_lit 151) .nil)) (nat_lit 119819) (nat_lit 153) (.node (.node (.node .nil (nat_lit 119820) (nat_lit 155) .nil) (nat_lit 119821) (nat_lit 157) .nil) (nat_lit 119822) (nat_lit 159) (.node .nil (nat_lit 119823) (nat_lit 161) .nil))) (nat_lit 119824) (nat_lit 163) (.node (.node (.node (.node .nil (nat_lit 119825) (nat_lit 165) .nil) (nat_lit 119826) (nat_lit 167) .nil) (nat_lit 119827) (nat_lit 169) (.node (.node .nil (nat_lit 119828) (nat_lit 171) .nil) (nat_lit 119829) (nat_lit 173) .nil)) (nat_lit 119830) (nat_lit 175) (.node (.node (.node .nil (nat_lit 119831) (nat_lit 177) .nil) (nat_lit 119832) (nat_lit 179) .nil) (nat_lit 119833) (nat_lit 181) (.node .nil (nat_lit 119834) (nat_lit 195) .nil)))))

def decT101100 : Tree :=
  .node (.node (.node (.node (.node (.node (.node .nil (nat_lit 119836) (nat_lit 199) .nil) (nat_lit 119837) (nat_lit 201) .nil) (nat_lit 119838) (nat_lit 203) (.node (.node .nil (nat_lit 119839) (nat_lit 205) .nil) (nat_lit 119840) (nat_lit 207) .nil)) (nat_lit 119841) (nat_lit 209) (.node (.node (.node .nil (nat_lit 119842) (nat_lit 211) .nil) (nat_lit 119843) (nat_lit 213) .nil) (nat_lit 119844) (nat_lit 215) (.node (.node .nil (nat_lit 119845) (nat_lit 217) .nil) (nat_lit 119846) (nat_lit 219) .nil))) (nat_lit 119847) (nat_lit 221) (.node (.node (.node (.node .nil (nat_lit 119848) (nat_lit 223) .nil) (nat_lit 119849) (nat_lit 225) .nil) (nat_lit 119850) (nat_lit 227) (.node (.node .nil (nat_lit 119851) (nat_lit 229) .nil) (nat_lit 119852) (nat_lit 231) .nil)) (nat_lit 119853) (nat_lit 233) (.node (.node (.node .nil (nat_lit 119854) (nat_lit 235) .nil) (nat_lit 119855) (nat_lit 237) .nil) (nat_lit 119856) (nat_lit 239) (.node .nil (nat_lit 119857) (nat_lit 241) .nil)))) (nat_lit 119858) (nat_lit 243) (.node (.node (.node (.node (.node .nil (nat_lit 119859) (nat_lit 245) .nil) (nat_lit 119860) (nat_lit 131) .nil) (nat_lit 119861) (nat_lit 133) (.node (.node .nil (nat_lit 119862) (nat_lit 135) .nil) (nat_lit 119863) (nat_lit 137) .nil)) (nat_lit 119864) (nat_lit 139) (.node (.node (.node .nil (nat_lit 119865) (nat_lit 141) .nil) (nat_lit 119866) (nat_lit 143) .nil) (nat_lit 119867) (nat_lit 145) (.node .nil (nat_lit 119868) (nat_lit 147) .nil))) (nat_lit 119869) (nat_lit 149) (.node (.node (.node (.node .nil (nat_lit 119870) (nat_lit 151) .nil) (nat_lit 119871) (nat_lit 153) .nil) (nat_lit 119872) (nat_lit 155) (.node (.node .nil (nat_lit 119873) (nat_lit 157) .nil) (nat_lit 119874) (nat_lit 159) .nil)) (nat_lit 119875) (nat_lit 161) (.node (.node (.node .nil (nat_lit 119876) (nat_lit 163) .nil) (nat_lit 119877) (nat_lit 165) .nil) (nat_lit 119878) (nat_lit 167) (.node .nil (nat_lit 119879) (nat_lit 169) .nil))))) (nat_lit 119880) (nat_lit 171) (.node (.node (.node (.node (.node (.node .nil (nat_lit 119881) (nat_lit 173) .nil) (nat_lit 119882) (nat_lit 175) .nil) (nat_lit 119883) (nat_lit 177) (.node (.node .nil (nat_lit 119884) (nat_lit 179) .nil) (nat_lit 119885) (nat_lit 181) .nil)) (nat_lit 119886) (nat_lit 195) (.node (.node (.node .nil (nat_lit 119887) (nat_lit 197) .nil) (nat_lit 119888) (nat_lit 199) .nil) (nat_lit 119889) (nat_lit 201) (.node (.node .nil (nat_lit 119890) (nat_lit 203) .nil) (nat_lit 119891) (nat_lit 205) .nil))) (nat_lit 119892) (nat_lit 207) (.node (.node (.node (.node .nil (nat_lit 119894) (nat_lit 211) .nil) (nat_lit 119895) (nat_lit 213) .nil) (nat_lit 119896) (nat_lit 215) (.node (.node .nil (nat_lit 119897) (nat_lit 217) .nil) (nat_lit 119898) (nat_lit 219) .nil)) (nat_lit 119899) (nat_lit 221) (.node (.node (.node .nil (nat_lit 119900) (nat_lit 223) .nil) (nat_lit 119901) (nat_lit 225) .nil) (nat_lit 119902) (nat_lit 227) (.node .nil (nat_lit 119903) (nat_lit 229) .nil)))) (nat_lit 119904) (nat_lit 231) (.node (.node (.node (.node (.node .nil (nat_lit 119905) (nat_lit 233) .nil) (nat_lit 119906) (nat_lit 235) .nil) (nat_lit 119907) (nat_lit 237) (.node (.node .nil (nat_lit 119908) (nat_lit 239) .nil) (nat_lit 119909) (nat_lit 241) .nil)) (nat_lit 119910) (nat_lit 243) (.node (.node (.node .nil (nat_lit 119911) (nat_lit 245) .nil) (nat_lit 119912) (nat_lit 131) .nil) (nat_lit 119913) (nat_lit 133) (.node .nil (nat_lit 119914) (nat_lit 135) .nil))) (nat_lit 119915) (nat_lit 137) (.node (.node (.node (.node .nil (nat_lit 119916) (nat_lit 139) .nil) (nat_lit 119917) (nat_lit 141) .nil) (nat_lit 119918) (nat_lit 143) (.node (.node .nil (nat_lit 119919) (nat_lit 145) .nil) (nat_lit 119920) (nat_lit 147) .nil)) (nat_lit 119921) (nat_lit 149) (.node (.node (.node .nil (nat_lit 119922) (nat_lit 151) .nil) (nat_lit 119923) (nat_lit 153) .nil) (nat_lit 119924) (nat_lit 155) (.node .nil (nat_lit 119925) (nat_lit 157) .nil)))))

def decT101101 : Tree :=
  .node (.node (.node (.node (.node (.node (.node .nil (nat_lit 119927) (nat_lit 161) .nil) (nat_lit 119928) (nat_lit 163) .nil) (nat_lit 119929) (nat_lit 165) (.node (.node .nil (nat_lit 119930) (nat_lit 167) .nil) (nat_lit 119931) (nat_lit 169) .nil)) (nat_lit 119932) (nat_lit 171) (.node (.node (.node .nil (nat_lit 119933) (nat_lit 173) .nil) (nat_lit 119934) (nat_lit 175) .nil) (nat_lit 119935) (nat_lit 177) (.node (.node .nil (nat_lit 119936) (nat_lit 179) .nil) (nat_lit 119937) (nat_lit 181) .nil))) (nat_lit 119938) (nat_lit 195) (.node (.node (.node (.node .nil (nat_lit 119939) (nat_lit 197) .nil) (nat_lit 119940) (nat_lit 199) .nil) (nat_lit 119941) (nat_lit 201) (.node (.node .nil (nat_lit 119942) (nat_lit 203) .nil) (nat_lit 119943) (nat_lit 205) .nil)) (nat_lit 119944) (nat_lit 207) (.node (.node (.node .nil (nat_lit 119945) (nat_lit 209) .nil) (nat_lit 119946) (nat_lit 211) .nil) (nat_lit 119947) (nat_lit 213) (.node .nil (nat_lit 119948) (nat_lit 215) .nil)))) (nat_lit 119949) (nat_lit 217) (.node (.node (.node (.node (.node .nil (nat_lit 119950) (nat_lit 219) .nil) (nat_lit 119951) (nat_lit 221) .nil) (nat_lit 119952) (nat_lit 223) (.node (.node .nil (nat_lit 119953) (nat_lit 225) .nil) (nat_lit 119954) (nat_lit 227) .nil)) (nat_lit 119955) (nat_lit 229) (.node (.node (.node .nil (nat_lit 119956) (nat_lit 231) .nil) (nat_lit 119957) (nat_lit 233) .nil) (nat_lit 119958) (nat_lit 235) (.node .nil (nat_lit 119959) (nat_lit 237) .nil))) (nat_lit 119960) (nat_lit 239) (.node (.node (.node (.node .nil (nat_lit 119961) (nat_lit 241) .nil) (nat_lit 119962) (nat_lit 243) .nil) (nat_lit 119963) (nat_lit 245) (.node (.node .nil (nat_lit 119964) (nat_lit 131) .nil) (nat_lit 119966) (nat_lit 135) .nil)) (nat_lit 119967) (nat_lit 137) (.node (.node (.node .nil (nat_lit 119970) (nat_lit 143) .nil) (nat_lit 119973) (nat_lit 149) .nil) (nat_lit 119974) (nat_lit 151) (.node .nil (nat_lit 119977) (nat_lit 157) .nil))))) (nat_lit 119978) (nat_lit 159) (.node (.node (.node (.node (.node (.node .nil (nat_lit 119979) (nat_lit 161) .nil) (nat_lit 119980) (nat_lit 163) .nil) (nat_lit 119982) (nat_lit 167) (.node (.node .nil (nat_lit 119983) (nat_lit 169) .nil) (nat_lit 119984) (nat_lit 171) .nil)) (nat_lit 119985) (nat_lit 173) (.node (.node (.node .nil (nat_lit 119986) (nat_lit 175) .nil) (nat_lit 119987) (nat_lit 177) .nil) (nat_lit 119988) (nat_lit 179) (.node .nil (nat_lit 119989) (nat_lit 181) .nil))) (nat_lit 119990) (nat_lit 195) (.node (.node (.node (.node .nil (nat_lit 119991) (nat_lit 197) .nil) (nat_lit 119992) (nat_lit 199) .nil) (nat_lit 119993) (nat_lit 201) (.node (.node .nil (nat_lit 119995) (nat_lit 205) .nil) (nat_lit 119997) (nat_lit 209) .nil)) (nat_lit 119998) (nat_lit 211) (.node (.node (.node .nil (nat_lit 119999) (nat_lit 213) .nil) (nat_lit 120000) (nat_lit 215) .nil) (nat_lit 120001) (nat_lit 217) (.node .nil (nat_lit 120002) (nat_lit 219) .nil)))) (nat_lit 120003) (nat_lit 221) (.node (.node (.node (.node (.node .nil (nat_lit 120005) (nat_lit 225) .nil) (nat_lit 120006) (nat_lit 227) .nil) (nat_lit 120007) (nat_lit 229) (.node (.node .nil (nat_lit 120008) (nat_lit 231) .nil) (nat_lit 120009) (nat_lit 233) .nil)) (nat_lit 120010) (nat_lit 235) (.node (.node (.node .nil (nat_lit 120011) (nat_lit 237) .nil) (nat_lit 120012) (nat_lit 239) .nil) (nat_lit 120013) (nat_lit 241) (.node .nil (nat_lit 120014) (nat_lit 243) .nil))) (nat_lit 120015) (nat_lit 245) (.node (.node (.node (.node .nil (nat_lit 120016) (nat_lit 131) .nil) (nat_lit 120017) (nat_lit 133) .nil) (nat_lit 120018) (nat_lit 135) (.node (.node .nil (nat_lit 120019) (nat_lit 137) .nil) (nat_lit 120020) (nat_lit 139) .nil)) (nat_lit 120021) (nat_lit 141) (.node (.node (.node .nil (nat_lit 120022) (nat_lit 143) .nil) (nat_lit 120023) (nat_lit 145) .nil) (nat_lit 120024) (nat_lit 147) (.node .nil (nat_lit 120025) (nat_lit 149) .nil)))))

def decT101110 : Tree :=
  .node (.node (.node (.node (.node (.node (.node .nil (nat_lit 120027) (nat_lit 153) .nil) (nat_lit 120028) (nat_lit 155) .nil) (nat_lit 120029) (nat_lit 157) (.node (.node .nil (nat_lit 120030) (nat_lit 159) .nil) (nat_lit 120031) (nat_lit 161) .nil)) (nat_lit 120032) (nat_lit 163) (.node (.node (.node .nil (nat_lit 120033) (nat_lit 165) .nil) (nat_lit 120034) (nat_lit 167) .nil) (nat_lit 120035) (nat_lit 169) (.node (.node .nil (nat_lit 120036) (nat_lit 171) .nil) (nat_lit 120037) (nat_lit 173) .nil))) (nat_lit 120038) (nat_lit 175) (.node (.node (.node (.node .nil (nat_lit 120039) (nat_lit 177) .nil) (nat_lit 120040) (nat_lit 179) .nil) (nat_lit 120041) (nat_lit 181) (.node (.node .nil (nat_lit 120042) (nat_lit 195) .nil) (nat_lit 120043) (nat_lit 197) .nil)) (nat_lit 120044) (nat_lit 199) (.node (.node (.node .nil (nat_lit 120045) (nat_lit 201) .nil) (nat_lit 120046) (nat_lit 203) .nil) (nat_lit 120047) (nat_lit 205) (.node .nil (nat_lit 120048) (nat_lit 207) .nil)))) (nat_lit 120049) (nat_lit 209) (.node (.node (.node (.node (.node .nil (nat_lit 120050) (nat_lit 211) .nil) (nat_lit 120051) (nat_lit 213) .nil) (nat_lit 120052) (nat_lit 215) (.node (.node .nil (nat_lit 120053) (nat_lit 217) .nil) (nat_lit 120054) (nat_lit 219) .nil)) (nat_lit 120055) (nat_lit 221) (.node (.node (.node .nil (nat_lit 120056) (nat_lit 223) .nil) (nat_lit 120057) (nat_lit 225) .nil) (nat_lit 120058) (nat_lit 227) (.node .nil (nat_lit 120059) (nat_lit 229) .nil))) (nat_lit 120060) (nat_lit 231) (.node (.node (.node (.node .nil (nat_lit 120061) (nat_lit 233) .nil) (nat_lit 120062) (nat_lit 235) .nil) (nat_lit 120063) (nat_lit 237) (.node (.node .nil (nat_lit 120064) (nat_lit 239) .nil) (nat_lit 120065) (nat_lit 241) .nil)) (nat_lit 120066) (nat_lit 243) (.node (.node (.node .nil (nat_lit 120067) (nat_lit 245) .nil) (nat_lit 120068) (nat_lit 131) .nil) (nat_lit 120069) (nat_lit 133) (.node .nil (nat_lit 120071) (nat_lit 137) .nil))))) (nat_lit 120072) (nat_lit 139) (.node (.node (.node (.node (.node (.node .nil (nat_lit 120073) (nat_lit 141) .nil) (nat_lit 120074) (nat_lit 143) .nil) (nat_lit 120077) (nat_lit 149) (.node (.node .nil (nat_lit 120078) (nat_lit 151) .nil) (nat_lit 120079) (nat_lit 153) .nil)) (nat_lit 120080) (nat_lit 155) (.node (.node (.node .nil (nat_lit 120081) (nat_lit 157) .nil) (nat_lit 120082) (nat_lit 159) .nil) (nat_lit 120083) (nat_lit 161) (.node .nil (nat_lit 120084) (nat_lit 163) .nil))) (nat_lit 120086) (nat_lit 167) (.node (.node (.node (.node .nil (nat_lit 120087) (nat_lit 169) .nil) (nat_lit 120088) (nat_lit 171) .nil) (nat_lit 120089) (nat_lit 173) (.node (.node .nil (nat_lit 120090) (nat_lit 175) .nil) (nat_lit 120091) (nat_lit 177) .nil)) (nat_lit 120092) (nat_lit 179) (.node (.node (.node .nil (nat_lit 120094) (nat_lit 195) .nil) (nat_lit 120095) (nat_lit 197) .nil) (nat_lit 120096) (nat_lit 199) (.node .nil (nat_lit 120097) (nat_lit 201) .nil)))) (nat_lit 120098) (nat_lit 203) (.node (.node (.node (.node (.node .nil (nat_lit 120099) (nat_lit 205) .nil) (nat_lit 120100) (nat_lit 207) .nil) (nat_lit 120101) (nat_lit 209) (.node (.node .nil (nat_lit 120102) (nat_lit 211) .nil) (nat_lit 120103) (nat_lit 213) .nil)) (nat_lit 120104) (nat_lit 215) (.node (.node (.node .nil (nat_lit 120105) (nat_lit 217) .nil) (nat_lit 120106) (nat_lit 219) .nil) (nat_lit 120107) (nat_lit 221) (.node .nil (nat_lit 120108) (nat_lit 223) .nil))) (nat_lit 120109) (nat_lit 225) (.node (.node (.node (.node .nil (nat_lit 120110) (nat_lit 227) .nil) (nat_lit 120111) (nat_lit 229) .nil) (nat_lit 120112) (nat_lit 231) (.node (.node .nil (nat_lit 120113) (nat_lit 233) .nil) (nat_lit 120114) (nat_lit 235) .nil)) (nat_lit 120115) (nat_lit 237) (.node (.node (.node .nil (nat_lit 120116) (nat_lit 239) .nil) (nat_lit 120117) (nat_lit 241) .nil) (nat_lit 120118) (nat_lit 243) (.node .nil (nat_lit 120119) (nat_lit 245) .nil)))))

def decT101111 : Tree :=
  .node (.node (.node (.node (.node (.node (.node .nil (nat_lit 120121) (nat_lit 133) .nil) (nat_lit 120123) (nat_lit 137) .nil) (nat_lit 120124) (nat_lit 139) (.node (.node .nil (nat_lit 120125) (nat_lit 141) .nil) (nat_lit 120126) (nat_lit 143) .nil)) (nat_lit 120128) (nat_lit 147) (.node (.node (.node .nil (nat_lit 120129) (nat_lit 149) .nil) (nat_lit 120130) (nat_lit 151) .nil) (nat_lit 120131) (nat_lit 153) (.node (.node .nil (nat_lit 120132) (nat_lit 155) .nil) (nat_lit 120134) (nat_lit 159) .nil))) (nat_lit 120138) (nat_lit 167) (.node (.node (.node (.node .nil (nat_lit 120139) (nat_lit 169) .nil) (nat_lit 120140) (nat_lit 171) .nil) (nat_lit 120141) (nat_lit 173) (.node (.node .nil (nat_lit 120142) (nat_lit 175) .nil) (nat_lit 120143) (nat_lit 177) .nil)) (nat_lit 120144) (nat_lit 179) (.node (.node (.node .nil (nat_lit 120146) (nat_lit 195) .nil) (nat_lit 120147) (nat_lit 197) .nil) (nat_lit 120148) (nat_lit 199) (.node .nil (nat_lit 120149) (nat_lit 201) .nil)))) (nat_lit 120150) (nat_lit 203) (.node (.node (.node (.node (.node .nil (nat_lit 120151) (nat_lit 205) .nil) (nat_lit 120152) (nat_lit 207) .nil) (nat_lit 120153) (nat_lit 209) (.node (.node .nil (nat_lit 120154) (nat_lit 211) .nil) (nat_lit 120155) (nat_lit 213) .nil)) (nat_lit 120156) (nat_lit 215) (.node (.node (.node .nil (nat_lit 120157) (nat_lit 217) .nil) (nat_lit 120158) (nat_lit 219) .nil) (nat_lit 120159) (nat_lit 221) (.node .nil (nat_lit 120160) (nat_lit 223) .nil))) (nat_lit 120161) (nat_lit 225) (.node (.node (.node (.node .nil (nat_lit 120162) (nat_lit 227) .nil) (nat_lit 120163) (nat_lit 229) .nil) (nat_lit 120164) (nat_lit 231) (.node (.node .nil (nat_lit 120165) (nat_lit 233) .nil) (nat_lit 120166) (nat_lit 235) .nil)) (nat_lit 120167) (nat_lit 237) (.node (.node (.node .nil (nat_lit 120168) (nat_lit 239) .nil) (nat_lit 120169) (nat_lit 241) .nil) (nat_lit 120170) (nat_lit 243) (.node .nil (nat_lit 120171) (nat_lit 245) .nil))))) (nat_lit 120172) (nat_lit 131) (.node (.node (.node (.node (.node (.node .nil (nat_lit 120173) (nat_lit 133) .nil) (nat_lit 120174) (nat_lit 135) .nil) (nat_lit 120175) (nat_lit 137) (.node (.node .nil (nat_lit 120176) (nat_lit 139) .nil) (nat_lit 120177) (nat_lit 141) .nil)) (nat_lit 120178) (nat_lit 143) (.node (.node (.node .nil (nat_lit 120179) (nat_lit 145) .nil) (nat_lit 120180) (nat_lit 147) .nil) (nat_lit 120181) (nat_lit 149) (.node .nil (nat_lit 120182) (nat_lit 151) .nil))) (nat_lit 120183) (nat_lit 153) (.node (.node (.node (.node .nil (nat_lit 120184) (nat_lit 155) .nil) (nat_lit 120185) (nat_lit 157) .nil) (nat_lit 120186) (nat_lit 159) (.node (.node .nil (nat_lit 120187) (nat_lit 161) .nil) (nat_lit 120188) (nat_lit 163) .nil)) (nat_lit 120189) (nat_lit 165) (.node (.node (.node .nil (nat_lit 120190) (nat_lit 167) .nil) (nat_lit 120191) (nat_lit 169) .nil) (nat_lit 120192) (nat_lit 171) (.node .nil (nat_lit 120193) (nat_lit 173) .nil)))) (nat_lit 120194) (nat_lit 175) (.node (.node (.node (.node (.node .nil (nat_lit 120195) (nat_lit 177) .nil) (nat_lit 120196) (nat_lit 179) .nil) (nat_lit 120197) (nat_lit 181) (.node (.node .nil (nat_lit 120198) (nat_lit 195) .nil) (nat_lit 120199) (nat_lit 197) .nil)) (nat_lit 120200) (nat_lit 199) (.node (.node (.node .nil (nat_lit 120201) (nat_lit 201) .nil) (nat_lit 120202) (nat_lit 203) .nil) (nat_lit 120203) (nat_lit 205) (.node .nil (nat_lit 120204) (nat_lit 207) .nil))) (nat_lit 120205) (nat_lit 209) (.node (.node (.node (.node .nil (nat_lit 120206) (nat_lit 211) .nil) (nat_lit 120207) (nat_lit 213) .nil) (nat_lit 120208) (nat_lit 215) (.node (.node .nil (nat_lit 120209) (nat_lit 217) .nil) (nat_lit 120210) (nat_lit 219) .nil)) (nat_lit 120211) (nat_lit 221) (.node (.node (.node .nil (nat_lit 120212) (nat_lit 223) .nil) (nat_lit 120213) (nat_lit 225) .nil) (nat_lit 120214) (nat_lit 227) (.node .nil (nat_lit 120215) (nat_lit 229) .nil)))))

def decT110000 : Tree :=
  .node (.node (.node (.node (.node (.node (.node .nil (nat_lit 120217) (nat_lit 233) .nil) (nat_lit 120218) (nat_lit 235) .nil) (nat_lit 120219) (nat_lit 237) (.node (.node .nil (nat_lit 120220) (nat_lit 239) .nil) (nat_lit 120221) (nat_lit 241) .nil)) (nat_lit 120222) (nat_lit 243) (.node (.node (.node .nil (nat_lit 120223) (nat_lit 245) .nil) (nat_lit 120224) (nat_lit 131) .nil) (nat_lit 120225) (nat_lit 133) (.node (.node .nil (nat_lit 120226) (nat_lit 135) .nil) (nat_lit 120227) (nat_lit 137) .nil))) (nat_lit 120228) (nat_lit 139) (.node (.node (.node (.node .nil (nat_lit 120229) (nat_lit 141) .nil) (nat_lit 120230) (nat_lit 143) .nil) (nat_lit 120231) (nat_lit 145) (.node (.node .nil (nat_lit 120232) (nat_lit 147) .nil) (nat_lit 120233) (nat_lit 149) .nil)) (nat_lit 120234) (nat_lit 151) (.node (.node (.node .nil (nat_lit 120235) (nat_lit 153) .nil) (nat_lit 120236) (nat_lit 155) .nil) (nat_lit 120237) (nat_lit 157) (.node .nil (nat_lit 120238) (nat_lit 159) .nil)))) (nat_lit 120239) (nat_lit 161) (.node (.node (.node (.node (.node .nil (nat_lit 120240) (nat_lit 163) .nil) (nat_lit 120241) (nat_lit 165) .nil) (nat_lit 120242) (nat_lit 167) (.node (.node .nil (nat_lit 120243) (nat_lit 169) .nil) (nat_lit 120244) (nat_lit 171) .nil)) (nat_lit 120245) (nat_lit 173) (.node (.node (.node .nil (nat_lit 120246) (nat_lit 175) .nil) (nat_lit 120247) (nat_lit 177) .nil) (nat_lit 120248) (nat_lit 179) (.node .nil (nat_lit 120249) (nat_lit 181) .nil))) (nat_lit 120250) (nat_lit 195) (.node (.node (.node (.node .nil (nat_lit 120251) (nat_lit 197) .nil) (nat_lit 120252) (nat_lit 199) .nil) (nat_lit 120253) (nat_lit 201) (.node (.node .nil (nat_lit 120254) (nat_lit 203) .nil) (nat_lit 120255) (nat_lit 205) .nil)) (nat_lit 120256) (nat_lit 207) (.node (.node (.node .nil (nat_lit 120257) (nat_lit 209) .nil) (nat_lit 120258) (nat_lit 211) .nil) (nat_lit 120259) (nat_lit 213) (.node .nil (nat_lit 120260) (nat_lit 215) .nil))))) (nat_lit 120261) (nat_lit 217) (.node (.node (.node (.node (.node (.node .nil (nat_lit 120262) (nat_lit 219) .nil) (nat_lit 120263) (nat_lit 221) .nil) (nat_lit 120264) (nat_lit 223) (.node (.node .nil (nat_lit 120265) (nat_lit 225) .nil) (nat_lit 120266) (nat_lit 227) .nil)) (nat_lit 120267) (nat_lit 229) (.node (.node (.node .nil (nat_lit 120268) (nat_lit 231) .nil) (nat_lit 120269) (nat_lit 233) .nil) (nat_lit 120270) (nat_lit 235) (.node (.node .nil (nat_lit 120271) (nat_lit 237) .nil) (nat_lit 120272) (nat_lit 239) .nil))) (nat_lit 120273) (nat_lit 241) (.node (.node (.node (.node .nil (nat_lit 120274) (nat_lit 243) .nil) (nat_lit 120275) (nat_lit 245) .nil) (nat_lit 120276) (nat_lit 131) (.node (.node .nil (nat_lit 120277) (nat_lit 133) .nil) (nat_lit 120278) (nat_lit 135) .nil)) (nat_lit 120279) (nat_lit 137) (.node (.node (.node .nil (nat_lit 120280) (nat_lit 139) .nil) (nat_lit 120281) (nat_lit 141) .nil) (nat_lit 120282) (nat_lit 143) (.node .nil (nat_lit 120283) (nat_lit 145) .nil)))) (nat_lit 120284) (nat_lit 147) (.node (.node (.node (.node (.node .nil (nat_lit 120285) (nat_lit 149) .nil) (nat_lit 120286) (nat_lit 151) .nil) (nat_lit 120287) (nat_lit 153) (.node (.node .nil (nat_lit 120288) (nat_lit 155) .nil) (nat_lit 120289) (nat_lit 157) .nil)) (nat_lit 120290) (nat_lit 159) (.node (.node (.node .nil (nat_lit 120291) (nat_lit 161) .nil) (nat_lit 120292) (nat_lit 163) .nil) (nat_lit 120293) (nat_lit 165) (.node .nil (nat_lit 120294) (nat_lit 167) .nil))) (nat_lit 120295) (nat_lit 169) (.node (.node (.node (.node .nil (nat_lit 120296) (nat_lit 171) .nil) (nat_lit 120297) (nat_lit 173) .nil) (nat_lit 120298) (nat_lit 175) (.node (.node .nil (nat_lit 120299) (nat_lit 177) .nil) (nat_lit 120300) (nat_lit 179) .nil)) (nat_lit 120301) (nat_lit 181) (.node (.node (.node .nil (nat_lit 120302) (nat_lit 195) .nil) (nat_lit 120303) (nat_lit 197) .nil) (nat_lit 120304) (nat_lit 199) (.node .nil (nat_lit 120305) (nat_lit 201) .nil)))))

def decT110001 : Tree :=
  .node (.node (.node (.node (.node (.node (.node .nil (nat_lit 120307) (nat_lit 205) .nil) (nat_lit 120308) (nat_lit 207) .nil) (nat_lit 120309) (nat_lit 209) (.node (.node .nil (nat_lit 120310) (nat_lit 211) .nil) (nat_lit 120311) (nat_lit 213) .nil)) (nat_lit 120312) (nat_lit 215) (.node (.node (.node .nil (nat_lit 120313) (nat_lit 217) .nil) (nat_lit 120314) (nat_lit 219) .nil) (nat_lit 120315) (nat_lit 221) (.node (.node .nil (nat_lit 120316) (nat_lit 223) .nil) (nat_lit 120317) (nat_lit 225) .nil))) (nat_lit 120318) (nat_lit 227) (.node (.node (.node (.node .nil (nat_lit 120319) (nat_lit 229) .nil) (nat_lit 120320) (nat_lit 231) .nil) (nat_lit 120321) (nat_lit 233) (.node (.node .nil (nat_lit 120322) (nat_lit 235) .nil) (nat_lit 120323) (nat_lit 237) .nil)) (nat_lit 120324) (nat_lit 239) (.node (.node (.node .nil (nat_lit 120325) (nat_lit 241) .nil) (nat_lit 120326) (nat_lit 243) .nil) (nat_lit 120327) (nat_lit 245) (.node .nil (nat_lit 120328) (nat_lit 131) .nil)))) (nat_lit 120329) (nat_lit 133) (.node (.node (.node (.node (.node .nil (nat_lit 120330) (nat_lit 135) .nil) (nat_lit 120331) (nat_lit 137) .nil) (nat_lit 120332) (nat_lit 139) (.node (.node .nil (nat_lit 120333) (nat_lit 141) .nil) (nat_lit 120334) (nat_lit 143) .nil)) (nat_lit 120335) (nat_lit 145) (.node (.node (.node .nil (nat_lit 120336) (nat_lit 147) .nil) (nat_lit 120337) (nat_lit 149) .nil) (nat_lit 120338) (nat_lit 151) (.node .nil (nat_lit 120339) (nat_lit 153) .nil))) (nat_lit 120340) (nat_lit 155) (.node (.node (.node (.node .nil (nat_lit 120341) (nat_lit 157) .nil) (nat_lit 120342) (nat_lit 159) .nil) (nat_lit 120343) (nat_lit 161) (.node (.node .nil (nat_lit 120344) (nat_lit 163) .nil) (nat_lit 120345) (nat_lit 165) .nil)) (nat_lit 120346) (nat_lit 167) (.node (.node (.node .nil (nat_lit 120347) (nat_lit 169) .nil) (nat_lit 120348) (nat_lit 171) .nil) (nat_lit 120349) (nat_lit 173) (.node .nil (nat_lit 120350) (nat_lit 175) .nil))))) (nat_lit 120351) (nat_lit 177) (.node (.node (.node (.node (.node (.node .nil (nat_lit 120352) (nat_lit 179) .nil) (nat_lit 120353) (nat_lit 181) .nil) (nat_lit 120354) (nat_lit 195) (.node (.node .nil (nat_lit 120355) (nat_lit 197) .nil) (nat_lit 120356) (nat_lit 199) .nil)) (nat_lit 120357) (nat_lit 201) (.node (.node (.node .nil (nat_lit 120358) (nat_lit 203) .nil) (nat_lit 120359) (nat_lit 205) .nil) (nat_lit 120360) (nat_lit 207) (.node .nil (nat_lit 120361) (nat_lit 209) .nil))) (nat_lit 120362) (nat_lit 211) (.node (.node (.node (.node .nil (nat_lit 120363) (nat_lit 213) .nil) (nat_lit 120364) (nat_lit 215) .nil) (nat_lit 120365) (nat_lit 217) (.node (.node .nil (nat_lit 120366) (nat_lit 219) .nil) (nat_lit 120367) (nat_lit 221) .nil)) (nat_lit 120368) (nat_lit 223) (.node (.node (.node .nil (nat_lit 120369) (nat_lit 225) .nil) (nat_lit 120370) (nat_lit 227) .nil) (nat_lit 120371) (nat_lit 229) (.node .nil (nat_lit 120372) (nat_lit 231) .nil)))) (nat_lit 120373) (nat_lit 233) (.node (.node (.node (.node (.node .nil (nat_lit 120374) (nat_lit 235) .nil) (nat_lit 120375) (nat_lit 237) .nil) (nat_lit 120376) (nat_lit 239) (.node (.node .nil (nat_lit 120377) (nat_lit 241) .nil) (nat_lit 120378) (nat_lit 243) .nil)) (nat_lit 120379) (nat_lit 245) (.node (.node (.node .nil (nat_lit 120380) (nat_lit 131) .nil) (nat_lit 120381) (nat_lit 133) .nil) (nat_lit 120382) (nat_lit 135) (.node .nil (nat_lit 120383) (nat_lit 137) .nil))) (nat_lit 120384) (nat_lit 139) (.node (.node (.node (.node .nil (nat_lit 120385) (nat_lit 141) .nil) (nat_lit 120386) (nat_lit 143) .nil) (nat_lit 120387) (nat_lit 145) (.node (.node .nil (nat_lit 120388) (nat_lit 147) .nil) (nat_lit 120389) (nat_lit 149) .nil)) (nat_lit 120390) (nat_lit 151) (.node (.node (.node .nil (nat_lit 120391) (nat_lit 153) .nil) (nat_lit 120392) (nat_lit 155) .nil) (nat_lit 120393) (nat_lit 157) (.node .nil (nat_lit 120394) (nat_lit 159) .nil)))))

def decT110010 : Tree :=
  .node (.node (.node (.node (.node (.node (.node .nil (nat_lit 120396) (nat_lit 163) .nil) (nat_lit 120397) (nat_lit 165) .nil) (nat_lit 120398) (nat_lit 167) (.node (.node .nil (nat_lit 120399) (nat_lit 169) .nil) (nat_lit 120400) (nat_lit 171) .nil)) (nat_lit 120401) (nat_lit 173) (.node (.node (.node .nil (nat_lit 120402) (nat_lit 175) .nil) (nat_lit 120403) (nat_lit 177) .nil) (nat_lit 120404) (nat_lit 179) (.node (.node .nil (nat_lit 120405) (nat_lit 181) .nil) (nat_lit 120406) (nat_lit 195) .nil))) (nat_lit 120407) (nat_lit 197) (.node (.node (.node (.node .nil (nat_lit 120408) (nat_lit 199) .nil) (nat_lit 120409) (nat_lit 201) .nil) (nat_lit 120410) (nat_lit 203) (.node (.node .nil (nat_lit 120411) (nat_lit 205) .nil) (nat_lit 120412) (nat_lit 207) .nil)) (nat_lit 120413) (nat_lit 209) (.node (.node (.node .nil (nat_lit 120414) (nat_lit 211) .nil) (nat_lit 120415) (nat_lit 213) .nil) (nat_lit 120416) (nat_lit 215) (.node .nil (nat_lit 120417) (nat_lit 217) .nil)))) (nat_lit 120418) (nat_lit 219) (.node (.node (.node (.node (.node .nil (nat_lit 120419) (nat_lit 221) .nil) (nat_lit 120420) (nat_lit 223) .nil) (nat_lit 120421) (nat_lit 225) (.node (.node .nil (nat_lit 120422) (nat_lit 227) .nil) (nat_lit 120423) (nat_lit 229) .nil)) (nat_lit 120424) (nat_lit 231) (.node (.node (.node .nil (nat_lit 120425) (nat_lit 233) .nil) (nat_lit 120426) (nat_lit 235) .nil) (nat_lit 120427) (nat_lit 237) (.node .nil (nat_lit 120428) (nat_lit 239) .nil))) (nat_lit 120429) (nat_lit 241) (.node (.node (.node (.node .nil (nat_lit 120430) (nat_lit 243) .nil) (nat_lit 120431) (nat_lit 245) .nil) (nat_lit 120432) (nat_lit 131) (.node (.node .nil (nat_lit 120433) (nat_lit 133) .nil) (nat_lit 120434) (nat_lit 135) .nil)) (nat_lit 120435) (nat_lit 137) (.node (.node (.node .nil (nat_lit 120436) (nat_lit 139) .nil) (nat_lit 120437) (nat_lit 141) .nil) (nat_lit 120438) (nat_lit 143) (.node .nil (nat_lit 120439) (nat_lit 145) .nil))))) (nat_lit 120440) (nat_lit 147) (.node (.node (.node (.node (.node (.node .nil (nat_lit 120441) (nat_lit 149) .nil) (nat_lit 120442) (nat_lit 151) .nil) (nat_lit 120443) (nat_lit 153) (.node (.node .nil (nat_lit 120444) (nat_lit 155) .nil) (nat_lit 120445) (nat_lit 157) .nil)) (nat_lit 120446) (nat_lit 159) (.node (.node (.node .nil (nat_lit 120447) (nat_lit 161) .nil) (nat_lit 120448) (nat_lit 163) .nil) (nat_lit 120449) (nat_lit 165) (.node (.node .nil (nat_lit 120450) (nat_lit 167) .nil) (nat_lit 120451) (nat_lit 169) .nil))) (nat_lit 120452) (nat_lit 171) (.node (.node (.node (.node .nil (nat_lit 120453) (nat_lit 173) .nil) (nat_lit 120454) (nat_lit 175) .nil) (nat_lit 120455) (nat_lit 177) (.node (.node .nil (nat_lit 120456) (nat_lit 179) .nil) (nat_lit 120457) (nat_lit 181) .nil)) (nat_lit 120458) (nat_lit 195) (.node (.node (.node .nil (nat_lit 120459) (nat_lit 197) .nil) (nat_lit 120460) (nat_lit 199) .nil) (nat_lit 120461) (nat_lit 201) (.node .nil (nat_lit 120462) (nat_lit 203) .nil)))) (nat_lit 120463) (nat_lit 205) (.node (.node (.node (.node (.node .nil (nat_lit 120464) (nat_lit 207) .nil) (nat_lit 120465) (nat_lit 209) .nil) (nat_lit 120466) (nat_lit 211) (.node (.node .nil (nat_lit 120467) (nat_lit 213) .nil) (nat_lit 120468) (nat_lit 215) .nil)) (nat_lit 120469) (nat_lit 217) (.node (.node (.node .nil (nat_lit 120470) (nat_lit 219) .nil) (nat_lit 120471) (nat_lit 221) .nil) (nat_lit 120472) (nat_lit 223) (.node .nil (nat_lit 120473) (nat_lit 225) .nil))) (nat_lit 120474) (nat_lit 227) (.node (.node (.node (.node .nil (nat_lit 120475) (nat_lit 229) .nil) (nat_lit 120476) (nat_lit 231) .nil) (nat_lit 120477) (nat_lit 233) (.node (.node .nil (nat_lit 120478) (nat_lit 235) .nil) (nat_lit 120479) (nat_lit 237) .nil)) (nat_lit 120480) (nat_lit 239) (.node (.node (.node .nil (nat_lit 120481) (nat_lit 241) .nil) (nat_lit 120482) (nat_lit 243) .nil) (nat_lit 120483) (nat_lit 245) (.node .nil (nat_lit 120484) (nat_lit 611) .nil)))))

def decT110011 : Tree :=
  .node (.node (.node (.node (.node (.node (.node .nil (nat_lit 120488) (nat_lit 1827) .nil) (nat_lit 120489) (nat_lit 1829) .nil) (nat_lit 120490) (nat_lit 1831) (.node (.node .nil (nat_lit 120491) (nat_lit 1833) .nil) (nat_lit 120492) (nat_lit 1835) .nil)) (nat_lit 120493) (nat_lit 1837) (.node (.node (.node .nil (nat_lit 120494) (nat_lit 1839) .nil) (nat_lit 120495) (nat_lit 1841) .nil) (nat_lit 120496) (nat_lit 1843) (.node (.node .nil (nat_lit 120497) (nat_lit 1845) .nil) (nat_lit 120498) (nat_lit 1847) .nil))) (nat_lit 120499) (nat_lit 1849) (.node (.node (.node (.node .nil (nat_lit 120500) (nat_lit 1851) .nil) (nat_lit 120501) (nat_lit 1853) .nil) (nat_lit 120502) (nat_lit 1855) (.node (.node .nil (nat_lit 120503) (nat_lit 1857) .nil) (nat_lit 120504) (nat_lit 1859) .nil)) (nat_lit 120505) (nat_lit 2025) (.node (.node (.node .nil (nat_lit 120506) (nat_lit 1863) .nil) (nat_lit 120507) (nat_lit 1865) .nil) (nat_lit 120508) (nat_lit 1867) (.node .nil (nat_lit 120509) (nat_lit 1869) .nil)))) (nat_lit 120510) (nat_lit 1871) (.node (.node (.node (.node (.node .nil (nat_lit 120511) (nat_lit 1873) .nil) (nat_lit 120512) (nat_lit 1875) .nil) (nat_lit 120513) (nat_lit 17423) (.node (.node .nil (nat_lit 120514) (nat_lit 1891) .nil) (nat_lit 120515) (nat_lit 1893) .nil)) (nat_lit 120516) (nat_lit 1895) (.node (.node (.node .nil (nat_lit 120517) (nat_lit 1897) .nil) (nat_lit 120518) (nat_lit 1899) .nil) (nat_lit 120519) (nat_lit 1901) (.node .nil (nat_lit 120520) (nat_lit 1903) .nil))) (nat_lit 120521) (nat_lit 1905) (.node (.node (.node (.node .nil (nat_lit 120522) (nat_lit 1907) .nil) (nat_lit 120523) (nat_lit 1909) .nil) (nat_lit 120524) (nat_lit 1911) (.node (.node .nil (nat_lit 120525) (nat_lit 1913) .nil) (nat_lit 120526) (nat_lit 1915) .nil)) (nat_lit 120527) (nat_lit 1917) (.node (.node (.node .nil (nat_lit 120528) (nat_lit 1919) .nil) (nat_lit 120529) (nat_lit 1921) .nil) (nat_lit 120530) (nat_lit 1923) (.node .nil (nat_lit 120531) (nat_lit 1925) .nil))))) (nat_lit 120532) (nat_lit 1927) (.node (.node (.node (.node (.node (.node .nil (nat_lit 120533) (nat_lit 1929) .nil) (nat_lit 120534) (nat_lit 1931) .nil) (nat_lit 120535) (nat_lit 1933) (.node (.node .nil (nat_lit 120536) (nat_lit 1935) .nil) (nat_lit 120537) (nat_lit 1937) .nil)) (nat_lit 120538) (nat_lit 1939) (.node (.node (.node .nil (nat_lit 120539) (nat_lit 17413) .nil) (nat_lit 120540) (nat_lit 2027) .nil) (nat_lit 120541) (nat_lit 1955) (.node .nil (nat_lit 120542) (nat_lit 2017) .nil))) (nat_lit 120543) (nat_lit 1963) (.node (.node (.node (.node .nil (nat_lit 120544) (nat_lit 2019) .nil) (nat_lit 120545) (nat_lit 1965) .nil) (nat_lit 120546) (nat_lit 1827) (.node (.node .nil (nat_lit 120547) (nat_lit 1829) .nil) (nat_lit 120548) (nat_lit 1831) .nil)) (nat_lit 120549) (nat_lit 1833) (.node (.node (.node .nil (nat_lit 120550) (nat_lit 1835) .nil) (nat_lit 120551) (nat_lit 1837) .nil) (nat_lit 120552) (nat_lit 1839) (.node .nil (nat_lit 120553) (nat_lit 1841) .nil)))) (nat_lit 120554) (nat_lit 1843) (.node (.node (.node (.node (.node .nil (nat_lit 120555) (nat_lit 1845) .nil) (nat_lit 120556) (nat_lit 1847) .nil) (nat_lit 120557) (nat_lit 1849) (.node (.node .nil (nat_lit 120558) (nat_lit 1851) .nil) (nat_lit 120559) (nat_lit 1853) .nil)) (nat_lit 120560) (nat_lit 1855) (.node (.node (.node .nil (nat_lit 120561) (nat_lit 1857) .nil) (nat_lit 120562) (nat_lit 1859) .nil) (nat_lit 120563) (nat_lit 2025) (.node .nil (nat_lit 120564) (nat_lit 1863) .nil))) (nat_lit 120565) (nat_lit 1865) (.node (.node (.node (.node .nil (nat_lit 120566) (nat_lit 1867) .nil) (nat_lit 120567) (nat_lit 1869) .nil) (nat_lit 120568) (nat_lit 1871) (.node (.node .nil (nat_lit 120569) (nat_lit 1873) .nil) (nat_lit 120570) (nat_lit 1875) .nil)) (nat_lit 120571) (nat_lit 17423) (.node (.node (.node .nil (nat_lit 120572) (nat_lit 1891) .nil) (nat_lit 120573) (nat_lit 1893) .nil) (nat_lit 120574) (nat_lit 1895) (.node .nil (nat_lit 120575) (nat_lit 1897) .nil)))))

def decT110100 : Tree :=
  .node (.node (.node (.node (.node (.node (.node .nil (nat_lit 120577) (nat_lit 1901) .nil) (nat_lit 120578) (nat_lit 1903) .nil) (nat_lit 120579) (nat_lit 1905) (.node (.node .nil (nat_lit 120580) (nat_lit 1907) .nil) (nat_lit 120581) (nat_lit 1909) .nil)) (nat_lit 120582) (nat_lit 1911) (.node (.node (.node .nil (nat_lit 120583) (nat_lit 1913) .nil) (nat_lit 120584) (nat_lit 1915) .nil) (nat_lit 120585) (nat_lit 1917) (.node (.node .nil (nat_lit 120586) (nat_lit 1919) .nil) (nat_lit 120587) (nat_lit 1921) .nil))) (nat_lit 120588) (nat_lit 1923) (.node (.node (.node (.node .nil (nat_lit 120589) (nat_lit 1925) .nil) (nat_lit 120590) (nat_lit 1927) .nil) (nat_lit 120591) (nat_lit 1929) (.node (.node .nil (nat_lit 120592) (nat_lit 1931) .nil) (nat_lit 120593) (nat_lit 1933) .nil)) (nat_lit 120594) (nat_lit 1935) (.node (.node (.node .nil (nat_lit 120595) (nat_lit 1937) .nil) (nat_lit 120596) (nat_lit 1939) .nil) (nat_lit 120597) (nat_lit 17413) (.node .nil (nat_lit 120598) (nat_lit 2027) .nil)))) (nat_lit 120599) (nat_lit 1955) (.node (.node (.node (.node (.node .nil (nat_lit 120600) (nat_lit 2017) .nil) (nat_lit 120601) (nat_lit 1963) .nil) (nat_lit 120602) (nat_lit 2019) (.node (.node .nil (nat_lit 120603) (nat_lit 1965) .nil) (nat_lit 120604) (nat_lit 1827) .nil)) (nat_lit 120605) (nat_lit 1829) (.node (.node (.node .nil (nat_lit 120606) (nat_lit 1831) .nil) (nat_lit 120607) (nat_lit 1833) .nil) (nat_lit 120608) (nat_lit 1835) (.node .nil (nat_lit 120609) (nat_lit 1837) .nil))) (nat_lit 120610) (nat_lit 1839) (.node (.node (.node (.node .nil (nat_lit 120611) (nat_lit 1841) .nil) (nat_lit 120612) (nat_lit 1843) .nil) (nat_lit 120613) (nat_lit 1845) (.node (.node .nil (nat_lit 120614) (nat_lit 1847) .nil) (nat_lit 120615) (nat_lit 1849) .nil)) (nat_lit 120616) (nat_lit 1851) (.node (.node (.node .nil (nat_lit 120617) (nat_lit 1853) .nil) (nat_lit 120618) (nat_lit 1855) .nil) (nat_lit 120619) (nat_lit 1857) (.node .nil (nat_lit 120620) (nat_lit 1859) .nil))))) (nat_lit 120621) (nat_lit 2025) (.node (.node (.node (.node (.node (.node .nil (nat_lit 120622) (nat_lit 1863) .nil) (nat_lit 120623) (nat_lit 1865) .nil) (nat_lit 120624) (nat_lit 1867) (.node (.node .nil (nat_lit 120625) (nat_lit 1869) .nil) (nat_lit 120626) (nat_lit 1871) .nil)) (nat_lit 120627) (nat_lit 1873) (.node (.node (.node .nil (nat_lit 120628) (nat_lit 1875) .nil) (nat_lit 120629) (nat_lit 17423) .nil) (nat_lit 120630) (nat_lit 1891) (.node (.node .nil (nat_lit 120631) (nat_lit 1893) .nil) (nat_lit 120632) (nat_lit 1895) .nil))) (nat_lit 120633) (nat_lit 1897) (.node (.node (.node (.node .nil (nat_lit 120634) (nat_lit 1899) .nil) (nat_lit 120635) (nat_lit 1901) .nil) (nat_lit 120636) (nat_lit 1903) (.node (.node .nil (nat_lit 120637) (nat_lit 1905) .nil) (nat_lit 120638) (nat_lit 1907) .nil)) (nat_lit 120639) (nat_lit 1909) (.node (.node (.node .nil (nat_lit 120640) (nat_lit 1911) .nil) (nat_lit 120641) (nat_lit 1913) .nil) (nat_lit 120642) (nat_lit 1915) (.node .nil (nat_lit 120643) (nat_lit 1917) .nil)))) (nat_lit 120644) (nat_lit 1919) (.node (.node (.node (.node (.node .nil (nat_lit 120645) (nat_lit 1921) .nil) (nat_lit 120646) (nat_lit 1923) .nil) (nat_lit 120647) (nat_lit 1925) (.node (.node .nil (nat_lit 120648) (nat_lit 1927) .nil) (nat_lit 120649) (nat_lit 1929) .nil)) (nat_lit 120650) (nat_lit 1931) (.node (.node (.node .nil (nat_lit 120651) (nat_lit 1933) .nil) (nat_lit 120652) (nat_lit 1935) .nil) (nat_lit 120653) (nat_lit 1937) (.node .nil (nat_lit 120654) (nat_lit 1939) .nil))) (nat_lit 120655) (nat_lit 17413) (.node (.node (.node (.node .nil (nat_lit 120656) (nat_lit 2027) .nil) (nat_lit 120657) (nat_lit 1955) .nil) (nat_lit 120658) (nat_lit 2017) (.node (.node .nil (nat_lit 120659) (nat_lit 1963) .nil) (nat_lit 120660) (nat_lit 2019) .nil)) (nat_lit 120661) (nat_lit 1965) (.node (.node (.node .nil (nat_lit 120662) (nat_lit 1827) .nil) (nat_lit 120663) (nat_lit 1829) .nil) (nat_lit 120664) (nat_lit 1831) (.node .nil (nat_lit 120665) (nat_lit 1833) .nil)))))

def decT110101 : Tree :=
  .node (.node (.node (.node (.node (.node (.node .nil (nat_lit 120667) (nat_lit 1837) .nil) (nat_lit 120668) (nat_lit 1839) .nil) (nat_lit 120669) (nat_lit 1841) (.node (.node .nil (nat_lit 120670) (nat_lit 1843) .nil) (nat_lit 120671) (nat_lit 1845) .nil)) (nat_lit 120672) (nat_lit 1847) (.node (.node (.node .nil (nat_lit 120673) (nat_lit 1849) .nil) (nat_lit 120674) (nat_lit 1851) .nil) (nat_lit 120675) (nat_lit 1853) (.node (.node .nil (nat_lit 120676) (nat_lit 1855) .nil) (nat_lit 120677) (nat_lit 1857) .nil))) (nat_lit 120678) (nat_lit 1859) (.node (.node (.node (.node .nil (nat_lit 120679) (nat_lit 2025) .nil) (nat_lit 120680) (nat_lit 1863) .nil) (nat_lit 120681) (nat_lit 1865) (.node (.node .nil (nat_lit 120682) (nat_lit 1867) .nil) (nat_lit 120683) (nat_lit 1869) .nil)) (nat_lit 120684) (nat_lit 1871) (.node (.node (.node .nil (nat_lit 120685) (nat_lit 1873) .nil) (nat_lit 120686) (nat_lit 1875) .nil) (nat_lit 120687) (nat_lit 17423) (.node .nil (nat_lit 120688) (nat_lit 1891) .nil)))) (nat_lit 120689) (nat_lit 1893) (.node (.node (.node (.node (.node .nil (nat_lit 120690) (nat_lit 1895) .nil) (nat_lit 120691) (nat_lit 1897) .nil) (nat_lit 120692) (nat_lit 1899) (.node (.node .nil (nat_lit 120693) (nat_lit 1901) .nil) (nat_lit 120694) (nat_lit 1903) .nil)) (nat_lit 120695) (nat_lit 1905) (.node (.node (.node .nil (nat_lit 120696) (nat_lit 1907) .nil) (nat_lit 120697) (nat_lit 1909) .nil) (nat_lit 120698) (nat_lit 1911) (.node .nil (nat_lit 120699) (nat_lit 1913) .nil))) (nat_lit 120700) (nat_lit 1915) (.node (.node (.node (.node .nil (nat_lit 120701) (nat_lit 1917) .nil) (nat_lit 120702) (nat_lit 1919) .nil) (nat_lit 120703) (nat_lit 1921) (.node (.node .nil (nat_lit 120704) (nat_lit 1923) .nil) (nat_lit 120705) (nat_lit 1925) .nil)) (nat_lit 120706) (nat_lit 1927) (.node (.node (.node .nil (nat_lit 120707) (nat_lit 1929) .nil) (nat_lit 120708) (nat_lit 1931) .nil) (nat_lit 120709) (nat_lit 1933) (.node .nil (nat_lit 120710) (nat_lit 1935) .nil))))) (nat_lit 120711) (nat_lit 1937) (.node (.node (.node (.node (.node (.node .nil (nat_lit 120712) (nat_lit 1939) .nil) (nat_lit 120713) (nat_lit 17413) .nil) (nat_lit 120714) (nat_lit 2027) (.node (.node .nil (nat_lit 120715) (nat_lit 1955) .nil) (nat_lit 120716) (nat_lit 2017) .nil)) (nat_lit 120717) (nat_lit 1963) (.node (.node (.node .nil (nat_lit 120718) (nat_lit 2019) .nil) (nat_lit 120719) (nat_lit 1965) .nil) (nat_lit 120720) (nat_lit 1827) (.node .nil (nat_lit 120721) (nat_lit 1829) .nil))) (nat_lit 120722) (nat_lit 1831) (.node (.node (.node (.node .nil (nat_lit 120723) (nat_lit 1833) .nil) (nat_lit 120724) (nat_lit 1835) .nil) (nat_lit 120725) (nat_lit 1837) (.node (.node .nil (nat_lit 120726) (nat_lit 1839) .nil) (nat_lit 120727) (nat_lit 1841) .nil)) (nat_lit 120728) (nat_lit 1843) (.node (.node (.node .nil (nat_lit 120729) (nat_lit 1845) .nil) (nat_lit 120730) (nat_lit 1847) .nil) (nat_lit 120731) (nat_lit 1849) (.node .nil (nat_lit 120732) (nat_lit 1851) .nil)))) (nat_lit 120733) (nat_lit 1853) (.node (.node (.node (.node (.node .nil (nat_lit 120734) (nat_lit 1855) .nil) (nat_lit 120735) (nat_lit 1857) .nil) (nat_lit 120736) (nat_lit 1859) (.node (.node .nil (nat_lit 120737) (nat_lit 2025) .nil) (nat_lit 120738) (nat_lit 1863) .nil)) (nat_lit 120739) (nat_lit 1865) (.node (.node (.node .nil (nat_lit 120740) (nat_lit 1867) .nil) (nat_lit 120741) (nat_lit 1869) .nil) (nat_lit 120742) (nat_lit 1871) (.node .nil (nat_lit 120743) (nat_lit 1873) .nil))) (nat_lit 120744) (nat_lit 1875) (.node (.node (.node (.node .nil (nat_lit 120745) (nat_lit 17423) .nil) (nat_lit 120746) (nat_lit 1891) .nil) (nat_lit 120747) (nat_lit 1893) (.node (.node .nil (nat_lit 120748) (nat_lit 1895) .nil) (nat_lit 120749) (nat_lit 1897) .nil)) (nat_lit 120750) (nat_lit 1899) (.node (.node (.node .nil (nat_lit 120751) (nat_lit 1901) .nil) (nat_lit 120752) (nat_lit 1903) .nil) (nat_lit 120753) (nat_lit 1905) (.node .nil (nat_lit 120754) (nat_lit 1907) .nil)))))

def decT110110 : Tree :=
  .node (.node (.node (.node (.node (.node (.node .nil (nat_lit 120756) (nat_lit 1911) .nil) (nat_lit 120757) (nat_lit 1913) .nil) (nat_lit 120758) (nat_lit 1915) (.node (.node .nil (nat_lit 120759) (nat_lit 1917) .nil) (nat_lit 120760) (nat_lit 1919) .nil)) (nat_lit 120761) (nat_lit 1921) (.node (.node (.node .nil (nat_lit 120762) (nat_lit 1923) .nil) (nat_lit 120763) (nat_lit 1925) .nil) (nat_lit 120764) (nat_lit 1927) (.node (.node .nil (nat_lit 120765) (nat_lit 1929) .nil) (nat_lit 120766) (nat_lit 1931) .nil))) (nat_lit 120767) (nat_lit 1933) (.node (.node (.node (.node .nil (nat_lit 120768) (nat_lit 1935) .nil) (nat_lit 120769) (nat_lit 1937) .nil) (nat_lit 120770) (nat_lit 1939) (.node (.node .nil (nat_lit 120771) (nat_lit 17413) .nil) (nat_lit 120772) (nat_lit 2027) .nil)) (nat_lit 120773) (nat_lit 1955) (.node (.node (.node .nil (nat_lit 120774) (nat_lit 2017) .nil) (nat_lit 120775) (nat_lit 1963) .nil) (nat_lit 120776) (nat_lit 2019) (.node .nil (nat_lit 120777) (nat_lit 1965) .nil)))) (nat_lit 120778) (nat_lit 1977) (.node (.node (.node (.node (.node .nil (nat_lit 120779) (nat_lit 1979) .nil) (nat_lit 120782) (nat_lit 97) .nil) (nat_lit 120783) (nat_lit 99) (.node (.node .nil (nat_lit 120784) (nat_lit 101) .nil) (nat_lit 120785) (nat_lit 103) .nil)) (nat_lit 120786) (nat_lit 105) (.node (.node (.node .nil (nat_lit 120787) (nat_lit 107) .nil) (nat_lit 120788) (nat_lit 109) .nil) (nat_lit 120789) (nat_lit 111) (.node .nil (nat_lit 120790) (nat_lit 113) .nil))) (nat_lit 120791) (nat_lit 115) (.node (.node (.node (.node .nil (nat_lit 120792) (nat_lit 97) .nil) (nat_lit 120793) (nat_lit 99) .nil) (nat_lit 120794) (nat_lit 101) (.node (.node .nil (nat_lit 120795) (nat_lit 103) .nil) (nat_lit 120796) (nat_lit 105) .nil)) (nat_lit 120797) (nat_lit 107) (.node (.node (.node .nil (nat_lit 120798) (nat_lit 109) .nil) (nat_lit 120799) (nat_lit 111) .nil) (nat_lit 120800) (nat_lit 113) (.node .nil (nat_lit 120801) (nat_lit 115) .nil))))) (nat_lit 120802) (nat_lit 97) (.node (.node (.node (.node (.node (.node .nil (nat_lit 120803) (nat_lit 99) .nil) (nat_lit 120804) (nat_lit 101) .nil) (nat_lit 120805) (nat_lit 103) (.node (.node .nil (nat_lit 120806) (nat_lit 105) .nil) (nat_lit 120807) (nat_lit 107) .nil)) (nat_lit 120808) (nat_lit 109) (.node (.node (.node .nil (nat_lit 120809) (nat_lit 111) .nil) (nat_lit 120810) (nat_lit 113) .nil) (nat_lit 120811) (nat_lit 115) (.node (.node .nil (nat_lit 120812) (nat_lit 97) .nil) (nat_lit 120813) (nat_lit 99) .nil))) (nat_lit 120814) (nat_lit 101) (.node (.node (.node (.node .nil (nat_lit 120815) (nat_lit 103) .nil) (nat_lit 120816) (nat_lit 105) .nil) (nat_lit 120817) (nat_lit 107) (.node (.node .nil (nat_lit 120818) (nat_lit 109) .nil) (nat_lit 120819) (nat_lit 111) .nil)) (nat_lit 120820) (nat_lit 113) (.node (.node (.node .nil (nat_lit 120821) (nat_lit 115) .nil) (nat_lit 120822) (nat_lit 97) .nil) (nat_lit 120823) (nat_lit 99) (.node .nil (nat_lit 120824) (nat_lit 101) .nil)))) (nat_lit 120825) (nat_lit 103) (.node (.node (.node (.node (.node .nil (nat_lit 120826) (nat_lit 105) .nil) (nat_lit 120827) (nat_lit 107) .nil) (nat_lit 120828) (nat_lit 109) (.node (.node .nil (nat_lit 120829) (nat_lit 111) .nil) (nat_lit 120830) (nat_lit 113) .nil)) (nat_lit 120831) (nat_lit 115) (.node (.node (.node .nil (nat_lit 126464) (nat_lit 3151) .nil) (nat_lit 126465) (nat_lit 3153) .nil) (nat_lit 126466) (nat_lit 3161) (.node .nil (nat_lit 126467) (nat_lit 3167) .nil))) (nat_lit 126469) (nat_lit 3217) (.node (.node (.node (.node .nil (nat_lit 126470) (nat_lit 3173) .nil) (nat_lit 126471) (nat_lit 3163) .nil) (nat_lit 126472) (nat_lit 3183) (.node (.node .nil (nat_lit 126473) (nat_lit 3221) .nil) (nat_lit 126474) (nat_lit 3207) .nil)) (nat_lit 126475) (nat_lit 3209) (.node (.node (.node .nil (nat_lit 126476) (nat_lit 3211) .nil) (nat_lit 126477) (nat_lit 3213) .nil) (nat_lit 126478) (nat_lit 3175) (.node .nil (nat_lit 126479) (nat_lit 3187) .nil)))))

def decT110111 : Tree :=
  .node (.node (.node (.node (.node (.node (.node .nil (nat_lit 126481) (nat_lit 3179) .nil) (nat_lit 126482) (nat_lit 3205) .nil) (nat_lit 126483) (nat_lit 3171) (.node (.node .nil (nat_lit 126484) (nat_lit 3177) .nil) (nat_lit 126485) (nat_lit 3157) .nil)) (nat_lit 126486) (nat_lit 3159) (.node (.node (.node .nil (nat_lit 126487) (nat_lit 3165) .nil) (nat_lit 126488) (nat_lit 3169) .nil) (nat_lit 126489) (nat_lit 3181) (.node (.node .nil (nat_lit 126490) (nat_lit 3185) .nil) (nat_lit 126491) (nat_lit 3189) .nil))) (nat_lit 126492) (nat_lit 3293) (.node (.node (.node (.node .nil (nat_lit 126493) (nat_lit 3445) .nil) (nat_lit 126494) (nat_lit 3395) .nil) (nat_lit 126495) (nat_lit 3295) (.node (.node .nil (nat_lit 126497) (nat_lit 3153) .nil) (nat_lit 126498) (nat_lit 3161) .nil)) (nat_lit 126500) (nat_lit 3215) (.node (.node (.node .nil (nat_lit 126503) (nat_lit 3163) .nil) (nat_lit 126505) (nat_lit 3221) .nil) (nat_lit 126506) (nat_lit 3207) (.node .nil (nat_lit 126507) (nat_lit 3209) .nil)))) (nat_lit 126508) (nat_lit 3211) (.node (.node (.node (.node (.node .nil (nat_lit 126509) (nat_lit 3213) .nil) (nat_lit 126510) (nat_lit 3175) .nil) (nat_lit 126511) (nat_lit 3187) (.node (.node .nil (nat_lit 126512) (nat_lit 3203) .nil) (nat_lit 126513) (nat_lit 3179) .nil)) (nat_lit 126514) (nat_lit 3205) (.node (.node (.node .nil (nat_lit 126516) (nat_lit 3177) .nil) (nat_lit 126517) (nat_lit 3157) .nil) (nat_lit 126518) (nat_lit 3159) (.node .nil (nat_lit 126519) (nat_lit 3165) .nil))) (nat_lit 126521) (nat_lit 3181) (.node (.node (.node (.node .nil (nat_lit 126523) (nat_lit 3189) .nil) (nat_lit 126530) (nat_lit 3161) .nil) (nat_lit 126535) (nat_lit 3163) (.node (.node .nil (nat_lit 126537) (nat_lit 3221) .nil) (nat_lit 126539) (nat_lit 3209) .nil)) (nat_lit 126541) (nat_lit 3213) (.node (.node (.node .nil (nat_lit 126542) (nat_lit 3175) .nil) (nat_lit 126543) (nat_lit 3187) .nil) (nat_lit 126545) (nat_lit 3179) (.node .nil (nat_lit 126546) (nat_lit 3205) .nil))))) (nat_lit 126548) (nat_lit 3177) (.node (.node (.node (.node (.node (.node .nil (nat_lit 126551) (nat_lit 3165) .nil) (nat_lit 126553) (nat_lit 3181) .nil) (nat_lit 126555) (nat_lit 3189) (.node (.node .nil (nat_lit 126557) (nat_lit 3445) .nil) (nat_lit 126559) (nat_lit 3295) .nil)) (nat_lit 126561) (nat_lit 3153) (.node (.node (.node .nil (nat_lit 126562) (nat_lit 3161) .nil) (nat_lit 126564) (nat_lit 3215) .nil) (nat_lit 126567) (nat_lit 3163) (.node .nil (nat_lit 126568) (nat_lit 3183) .nil))) (nat_lit 126569) (nat_lit 3221) (.node (.node (.node (.node .nil (nat_lit 126570) (nat_lit 3207) .nil) (nat_lit 126572) (nat_lit 3211) .nil) (nat_lit 126573) (nat_lit 3213) (.node (.node .nil (nat_lit 126574) (nat_lit 3175) .nil) (nat_lit 126575) (nat_lit 3187) .nil)) (nat_lit 126576) (nat_lit 3203) (.node (.node (.node .nil (nat_lit 126577) (nat_lit 3179) .nil) (nat_lit 126578) (nat_lit 3205) .nil) (nat_lit 126580) (nat_lit 3177) (.node .nil (nat_lit 126581) (nat_lit 3157) .nil)))) (nat_lit 126582) (nat_lit 3159) (.node (.node (.node (.node (.node .nil (nat_lit 126583) (nat_lit 3165) .nil) (nat_lit 126585) (nat_lit 3181) .nil) (nat_lit 126586) (nat_lit 3185) (.node (.node .nil (nat_lit 126587) (nat_lit 3189) .nil) (nat_lit 126588) (nat_lit 3293) .nil)) (nat_lit 126590) (nat_lit 3395) (.node (.node (.node .nil (nat_lit 126592) (nat_lit 3151) .nil) (nat_lit 126593) (nat_lit 3153) .nil) (nat_lit 126594) (nat_lit 3161) (.node .nil (nat_lit 126595) (nat_lit 3167) .nil))) (nat_lit 126596) (nat_lit 3215) (.node (.node (.node (.node .nil (nat_lit 126597) (nat_lit 3217) .nil) (nat_lit 126598) (nat_lit 3173) .nil) (nat_lit 126599) (nat_lit 3163) (.node (.node .nil (nat_lit 126600) (nat_lit 3183) .nil) (nat_lit 126601) (nat_lit 3221) .nil)) (nat_lit 126603) (nat_lit 3209) (.node (.node (.node .nil (nat_lit 126604) (nat_lit 3211) .nil) (nat_lit 126605) (nat_lit 3213) .nil) (nat_lit 126606) (nat_lit 3175) (.node .nil (nat_lit 126607) (nat_lit 3187) .nil)))))

def decT111000 : Tree :=
  .node (.node (.node (.node (.node (.node (.node .nil (nat_lit 126609) (nat_lit 3179) .nil) (nat_lit 126610) (nat_lit 3205) .nil) (nat_lit 126611) (nat_lit 3171) (.node (.node .nil (nat_lit 126612) (nat_lit 3177) .nil) (nat_lit 126613) (nat_lit 3157) .nil)) (nat_lit 126614) (nat_lit 3159) (.node (.node (.node .nil (nat_lit 126615) (nat_lit 3165) .nil) (nat_lit 126616) (nat_lit 3169) .nil) (nat_lit 126617) (nat_lit 3181) (.node (.node .nil (nat_lit 126618) (nat_lit 3185) .nil) (nat_lit 126619) (nat_lit 3189) .nil))) (nat_lit 126625) (nat_lit 3153) (.node (.node (.node (.node .nil (nat_lit 126626) (nat_lit 3161) .nil) (nat_lit 126627) (nat_lit 3167) .nil) (nat_lit 126629) (nat_lit 3217) (.node (.node .nil (nat_lit 126630) (nat_lit 3173) .nil) (nat_lit 126631) (nat_lit 3163) .nil)) (nat_lit 126632) (nat_lit 3183) (.node (.node (.node .nil (nat_lit 126633) (nat_lit 3221) .nil) (nat_lit 126635) (nat_lit 3209) .nil) (nat_lit 126636) (nat_lit 3211) (.node .nil (nat_lit 126637) (nat_lit 3213) .nil)))) (nat_lit 126638) (nat_lit 3175) (.node (.node (.node (.node (.node .nil (nat_lit 126639) (nat_lit 3187) .nil) (nat_lit 126640) (nat_lit 3203) .nil) (nat_lit 126641) (nat_lit 3179) (.node (.node .nil (nat_lit 126642) (nat_lit 3205) .nil) (nat_lit 126643) (nat_lit 3171) .nil)) (nat_lit 126644) (nat_lit 3177) (.node (.node (.node .nil (nat_lit 126645) (nat_lit 3157) .nil) (nat_lit 126646) (nat_lit 3159) .nil) (nat_lit 126647) (nat_lit 3165) (.node .nil (nat_lit 126648) (nat_lit 3169) .nil))) (nat_lit 126649) (nat_lit 3181) (.node (.node (.node (.node .nil (nat_lit 126650) (nat_lit 3185) .nil) (nat_lit 126651) (nat_lit 3189) .nil) (nat_lit 127232) (nat_lit 192938081) (.node (.node .nil (nat_lit 127233) (nat_lit 184549473) .nil) (nat_lit 127234) (nat_lit 184549475) .nil)) (nat_lit 127235) (nat_lit 184549477) (.node (.node (.node .nil (nat_lit 127236) (nat_lit 184549479) .nil) (nat_lit 127237) (nat_lit 184549481) .nil) (nat_lit 127238) (nat_lit 184549483) (.node .nil (nat_lit 127239) (nat_lit 184549485) .nil))))) (nat_lit 127240) (nat_lit 184549487) (.node (.node (.node (.node (.node (.node .nil (nat_lit 127241) (nat_lit 184549489) .nil) (nat_lit 127242) (nat_lit 184549491) .nil) (nat_lit 127248) (nat_lit 360640086540369) (.node (.node .nil (nat_lit 127249) (nat_lit 360640090734673) .nil) (nat_lit 127250) (nat_lit 360640094928977) .nil)) (nat_lit 127251) (nat_lit 360640099123281) (.node (.node (.node .nil (nat_lit 127252) (nat_lit 360640103317585) .nil) (nat_lit 127253) (nat_lit 360640107511889) .nil) (nat_lit 127254) (nat_lit 360640111706193) (.node (.node .nil (nat_lit 127255) (nat_lit 360640115900497) .nil) (nat_lit 127256) (nat_lit 360640120094801) .nil))) (nat_lit 127257) (nat_lit 360640124289105) (.node (.node (.node (.node .nil (nat_lit 127258) (nat_lit 360640128483409) .nil) (nat_lit 127259) (nat_lit 360640132677713) .nil) (nat_lit 127260) (nat_lit 360640136872017) (.node (.node .nil (nat_lit 127261) (nat_lit 360640141066321) .nil) (nat_lit 127262) (nat_lit 360640145260625) .nil)) (nat_lit 127263) (nat_lit 360640149454929) (.node (.node (.node .nil (nat_lit 127264) (nat_lit 360640153649233) .nil) (nat_lit 127265) (nat_lit 360640157843537) .nil) (nat_lit 127266) (nat_lit 360640162037841) (.node .nil (nat_lit 127267) (nat_lit 360640166232145) .nil)))) (nat_lit 127268) (nat_lit 360640170426449) (.node (.node (.node (.node (.node .nil (nat_lit 127269) (nat_lit 360640174620753) .nil) (nat_lit 127270) (nat_lit 360640178815057) .nil) (nat_lit 127271) (nat_lit 360640183009361) (.node (.node .nil (nat_lit 127272) (nat_lit 360640187203665) .nil) (nat_lit 127273) (nat_lit 360640191397969) .nil)) (nat_lit 127274) (nat_lit 108271109358510121) (.node (.node (.node .nil (nat_lit 127275) (nat_lit 135) .nil) (nat_lit 127276) (nat_lit 165) .nil) (nat_lit 127277) (nat_lit 285212807) (.node .nil (nat_lit 127278) (nat_lit 377487535) .nil))) (nat_lit 127280) (nat_lit 131) (.node (.node (.node (.node .nil (nat_lit 127281) (nat_lit 133) .nil) (nat_lit 127282) (nat_lit 135) .nil) (nat_lit 127283) (nat_lit 137) (.node (.node .nil (nat_lit 127284) (nat_lit 139) .nil) (nat_lit 127285) (nat_lit 141) .nil)) (nat_lit 127286) (nat_lit 143) (.node (.node (.node .nil (nat_lit 127287) (nat_lit 145) .nil) (nat_lit 127288) (nat_lit 147) .nil) (nat_lit 127289) (nat_lit 149) (.node .nil (nat_lit 127290) (nat_lit 151) .nil)))))

def decT111001 : Tree :=
  .node (.node (.node (.node (.node (.node (.node .nil (nat_lit 127292) (nat_lit 155) .nil) (nat_lit 127293) (nat_lit 157) .nil) (nat_lit 127294) (nat_lit 159) (.node (.node .nil (nat_lit 127295) (nat_lit 161) .nil) (nat_lit 127296) (nat_lit 163) .nil)) (nat_lit 127297) (nat_lit 165) (.node (.node (.node .nil (nat_lit 127298) (nat_lit 167) .nil) (nat_lit 127299) (nat_lit 169) .nil) (nat_lit 127300) (nat_lit 171) (.node (.node .nil (nat_lit 127301) (nat_lit 173) .nil) (nat_lit 127302) (nat_lit 175) .nil))) (nat_lit 127303) (nat_lit 177) (.node (.node (.node (.node .nil (nat_lit 127304) (nat_lit 179) .nil) (nat_lit 127305) (nat_lit 181) .nil) (nat_lit 127306) (nat_lit 360710289) (.node (.node .nil (nat_lit 127307) (nat_lit 360710299) .nil) (nat_lit 127308) (nat_lit 285212839) .nil)) (nat_lit 127309) (nat_lit 348127399) (.node (.node (.node .nil (nat_lit 127310) (nat_lit 756464335454369) .nil) (nat_lit 127311) (nat_lit 281018543) .nil) (nat_lit 127338) (nat_lit 281018523) (.node .nil (nat_lit 127339) (nat_lit 285212827) .nil)))) (nat_lit 127340) (nat_lit 343933083) (.node (.node (.node (.node (.node .nil (nat_lit 127376) (nat_lit 310378633) .nil) (nat_lit 127488) (nat_lit 51854205175) .nil) (nat_lit 127489) (nat_lit 52290412903) (.node (.node .nil (nat_lit 127490) (nat_lit 24939) .nil) (nat_lit 127504) (nat_lit 50327) .nil)) (nat_lit 127505) (nat_lit 46767) (.node (.node (.node .nil (nat_lit 127506) (nat_lit 42905) .nil) (nat_lit 127507) (nat_lit 24975) .nil) (nat_lit 127508) (nat_lit 40217) (.node .nil (nat_lit 127509) (nat_lit 45621) .nil))) (nat_lit 127510) (nat_lit 70599) (.node (.node (.node (.node .nil (nat_lit 127511) (nat_lit 45651) .nil) (nat_lit 127512) (nat_lit 40265) .nil) (nat_lit 127513) (nat_lit 52289) (.node (.node .nil (nat_lit 127514) (nat_lit 57923) .nil) (nat_lit 127515) (nat_lit 52019) .nil)) (nat_lit 127516) (nat_lit 42139) (.node (.node (.node .nil (nat_lit 127517) (nat_lit 48921) .nil) (nat_lit 127518) (nat_lit 41755) .nil) (nat_lit 127519) (nat_lit 52065) (.node .nil (nat_lit 127520) (nat_lit 42043) .nil))))) (nat_lit 127521) (nat_lit 64133) (.node (.node (.node (.node (.node (.node .nil (nat_lit 127522) (nat_lit 59967) .nil) (nat_lit 127523) (nat_lit 72019) .nil) (nat_lit 127524) (nat_lit 45537) (.node (.node .nil (nat_lit 127525) (nat_lit 43123) .nil) (nat_lit 127526) (nat_lit 56873) .nil)) (nat_lit 127527) (nat_lit 50475) (.node (.node (.node .nil (nat_lit 127528) (nat_lit 50859) .nil) (nat_lit 127529) (nat_lit 39937) .nil) (nat_lit 127530) (nat_lit 39955) (.node .nil (nat_lit 127531) (nat_lit 73877) .nil))) (nat_lit 127532) (nat_lit 48077) (.node (.node (.node (.node .nil (nat_lit 127533) (nat_lit 40027) .nil) (nat_lit 127534) (nat_lit 42983) .nil) (nat_lit 127535) (nat_lit 50703) (.node (.node .nil (nat_lit 127536) (nat_lit 72417) .nil) (nat_lit 127537) (nat_lit 50343) .nil)) (nat_lit 127538) (nat_lit 62211) (.node (.node (.node .nil (nat_lit 127539) (nat_lit 62709) .nil) (nat_lit 127540) (nat_lit 43025) .nil) (nat_lit 127541) (nat_lit 56577) (.node .nil (nat_lit 127542) (nat_lit 52755) .nil)))) (nat_lit 127543) (nat_lit 52753) (.node (.node (.node (.node (.node .nil (nat_lit 127544) (nat_lit 60007) .nil) (nat_lit 127545) (nat_lit 42213) .nil) (nat_lit 127546) (nat_lit 43885) (.node (.node .nil (nat_lit 127547) (nat_lit 74395) .nil) (nat_lit 127552) (nat_lit 108271219790340137) .nil)) (nat_lit 127553) (nat_lit 108271192799993897) (.node (.node (.node .nil (nat_lit 127554) (nat_lit 108271193349447721) .nil) (nat_lit 127555) (nat_lit 108271207295508521) .nil) (nat_lit 127556) (nat_lit 108271230045413417) (.node .nil (nat_lit 127557) (nat_lit 108271214585208873) .nil))) (nat_lit 127558) (nat_lit 108271236613693481) (.node (.node (.node (.node .nil (nat_lit 127559) (nat_lit 108271197984153641) .nil) (nat_lit 127560) (nat_lit 108271217823211561) .nil) (nat_lit 127568) (nat_lit 48943) (.node (.node .nil (nat_lit 127569) (nat_lit 42975) .nil) (nat_lit 194560) (nat_lit 40058) .nil)) (nat_lit 194561) (nat_lit 40048) (.node (.node (.node .nil (nat_lit 194562) (nat_lit 40066) .nil) (nat_lit 194563) (nat_lit 262724) .nil) (nat_lit 194564) (nat_lit 40640) (.node .nil (nat_lit 194565) (nat_lit 40796) .nil)))))

def decT111010 : Tree :=
  .node (.node (.node (.node (.node (.node (.node .nil (nat_lit 194567) (nat_lit 40964) .nil) (nat_lit 194568) (nat_lit 41204) .nil) (nat_lit 194569) (nat_lit 41266) (.node (.node .nil (nat_lit 194570) (nat_lit 41422) .nil) (nat_lit 194571) (nat_lit 41374) .nil)) (nat_lit 194572) (nat_lit 26940) (.node (.node (.node .nil (nat_lit 194573) (nat_lit 265332) .nil) (nat_lit 194574) (nat_lit 41626) .nil) (nat_lit 194575) (nat_lit 41640) (.node (.node .nil (nat_lit 194576) (nat_lit 41672) .nil) (nat_lit 194577) (nat_lit 41710) .nil))) (nat_lit 194578) (nat_lit 264760) (.node (.node (.node (.node .nil (nat_lit 194579) (nat_lit 26994) .nil) (nat_lit 194580) (nat_lit 41678) .nil) (nat_lit 194581) (nat_lit 41754) (.node (.node .nil (nat_lit 194582) (nat_lit 264854) .nil) (nat_lit 194583) (nat_lit 41774) .nil)) (nat_lit 194584) (nat_lit 41800) (.node (.node (.node .nil (nat_lit 194585) (nat_lit 40344) .nil) (nat_lit 194586) (nat_lit 41816) .nil) (nat_lit 194587) (nat_lit 41834) (.node .nil (nat_lit 194588) (nat_lit 336830) .nil)))) (nat_lit 194589) (nat_lit 41962) (.node (.node (.node (.node (.node .nil (nat_lit 194590) (nat_lit 41990) .nil) (nat_lit 194591) (nat_lit 27070) .nil) (nat_lit 194592) (nat_lit 42102) (.node (.node .nil (nat_lit 194593) (nat_lit 42124) .nil) (nat_lit 194594) (nat_lit 42212) .nil)) (nat_lit 194595) (nat_lit 42222) (.node (.node (.node .nil (nat_lit 194596) (nat_lit 27178) .nil) (nat_lit 194597) (nat_lit 42382) .nil) (nat_lit 194598) (nat_lit 42386) (.node .nil (nat_lit 194599) (nat_lit 42440) .nil))) (nat_lit 194600) (nat_lit 42484) (.node (.node (.node (.node .nil (nat_lit 194601) (nat_lit 42506) .nil) (nat_lit 194602) (nat_lit 42508) .nil) (nat_lit 194603) (nat_lit 42542) (.node (.node .nil (nat_lit 194604) (nat_lit 42642) .nil) (nat_lit 194605) (nat_lit 42658) .nil)) (nat_lit 194606) (nat_lit 42676) (.node (.node (.node .nil (nat_lit 194607) (nat_lit 42726) .nil) (nat_lit 194608) (nat_lit 42746) .nil) (nat_lit 194609) (nat_lit 42750) (.node .nil (nat_lit 194610) (nat_lit 42750) .nil))))) (nat_lit 194611) (nat_lit 42750) (.node (.node (.node (.node (.node (.node .nil (nat_lit 194612) (nat_lit 267352) .nil) (nat_lit 194613) (nat_lit 57568) .nil) (nat_lit 194614) (nat_lit 42900) (.node (.node .nil (nat_lit 194615) (nat_lit 42942) .nil) (nat_lit 194616) (nat_lit 267974) .nil)) (nat_lit 194617) (nat_lit 42966) (.node (.node (.node .nil (nat_lit 194618) (nat_lit 42978) .nil) (nat_lit 194619) (nat_lit 43020) .nil) (nat_lit 194620) (nat_lit 43324) (.node (.node .nil (nat_lit 194621) (nat_lit 43120) .nil) (nat_lit 194622) (nat_lit 43152) .nil))) (nat_lit 194623) (nat_lit 43216) (.node (.node (.node (.node .nil (nat_lit 194624) (nat_lit 43332) .nil) (nat_lit 194625) (nat_lit 43500) .nil) (nat_lit 194626) (nat_lit 43552) (.node (.node .nil (nat_lit 194627) (nat_lit 43686) .nil) (nat_lit 194628) (nat_lit 43718) .nil)) (nat_lit 194629) (nat_lit 43784) (.node (.node (.node .nil (nat_lit 194630) (nat_lit 43784) .nil) (nat_lit 194631) (nat_lit 43826) .nil) (nat_lit 194632) (nat_lit 43862) (.node .nil (nat_lit 194633) (nat_lit 43878) .nil)))) (nat_lit 194634) (nat_lit 43908) (.node (.node (.node (.node (.node .nil (nat_lit 194635) (nat_lit 44588) .nil) (nat_lit 194636) (nat_lit 44044) .nil) (nat_lit 194637) (nat_lit 44590) (.node (.node .nil (nat_lit 194638) (nat_lit 44194) .nil) (nat_lit 194639) (nat_lit 44264) .nil)) (nat_lit 194640) (nat_lit 41998) (.node (.node (.node .nil (nat_lit 194641) (nat_lit 45532) .nil) (nat_lit 194642) (nat_lit 44956) .nil) (nat_lit 194643) (nat_lit 45032) (.node .nil (nat_lit 194644) (nat_lit 45082) .nil))) (nat_lit 194645) (nat_lit 44822) (.node (.node (.node (.node .nil (nat_lit 194646) (nat_lit 45156) .nil) (nat_lit 194647) (nat_lit 45154) .nil) (nat_lit 194648) (nat_lit 45400) (.node (.node .nil (nat_lit 194649) (nat_lit 272840) .nil) (nat_lit 194650) (nat_lit 45540) .nil)) (nat_lit 194651) (nat_lit 45550) (.node (.node (.node .nil (nat_lit 194652) (nat_lit 45580) .nil) (nat_lit 194653) (nat_lit 45620) .nil) (nat_lit 194654) (nat_lit 45636) (.node .nil (nat_lit 194655) (nat_lit 45764) .nil)))))

def decT111011 : Tree :=
  .node (.node (.node (.node (.node (.node (.node .nil (nat_lit 194657) (nat_lit 273876) .nil) (nat_lit 194658) (nat_lit 46040) .nil) (nat_lit 194659) (nat_lit 46134) (.node (.node .nil (nat_lit 194660) (nat_lit 46158) .nil) (nat_lit 194661) (nat_lit 46000) .nil)) (nat_lit 194662) (nat_lit 46284) (.node (.node (.node .nil (nat_lit 194663) (nat_lit 28124) .nil) (nat_lit 194664) (nat_lit 28152) .nil) (nat_lit 194665) (nat_lit 46608) (.node (.node .nil (nat_lit 194666) (nat_lit 46716) .nil) (nat_lit 194667) (nat_lit 46716) .nil))) (nat_lit 194668) (nat_lit 275344) (.node (.node (.node (.node .nil (nat_lit 194669) (nat_lit 46982) .nil) (nat_lit 194670) (nat_lit 47024) .nil) (nat_lit 194671) (nat_lit 47054) (.node (.node .nil (nat_lit 194672) (nat_lit 47078) .nil) (nat_lit 194673) (nat_lit 276016) .nil)) (nat_lit 194674) (nat_lit 47102) (.node (.node (.node .nil (nat_lit 194675) (nat_lit 47116) .nil) (nat_lit 194676) (nat_lit 48806) .nil) (nat_lit 194677) (nat_lit 47172) (.node .nil (nat_lit 194678) (nat_lit 28418) .nil)))) (nat_lit 194679) (nat_lit 47296) (.node (.node (.node (.node (.node .nil (nat_lit 194680) (nat_lit 47324) .nil) (nat_lit 194681) (nat_lit 47488) .nil) (nat_lit 194682) (nat_lit 47386) (.node (.node .nil (nat_lit 194683) (nat_lit 277448) .nil) (nat_lit 194684) (nat_lit 47750) .nil)) (nat_lit 194685) (nat_lit 277452) (.node (.node (.node .nil (nat_lit 194686) (nat_lit 47836) .nil) (nat_lit 194687) (nat_lit 47830) .nil) (nat_lit 194688) (nat_lit 47864) (.node .nil (nat_lit 194689) (nat_lit 48066) .nil))) (nat_lit 194690) (nat_lit 48068) (.node (.node (.node (.node .nil (nat_lit 194691) (nat_lit 28766) .nil) (nat_lit 194692) (nat_lit 48122) .nil) (nat_lit 194693) (nat_lit 48208) (.node (.node .nil (nat_lit 194694) (nat_lit 48250) .nil) (nat_lit 194695) (nat_lit 48338) .nil)) (nat_lit 194696) (nat_lit 28868) (.node (.node (.node .nil (nat_lit 194697) (nat_lit 279302) .nil) (nat_lit 194698) (nat_lit 28920) .nil) (nat_lit 194699) (nat_lit 48480) (.node .nil (nat_lit 194700) (nat_lit 48486) .nil))))) (nat_lit 194701) (nat_lit 48492) (.node (.node (.node (.node (.node (.node .nil (nat_lit 194702) (nat_lit 48532) .nil) (nat_lit 194703) (nat_lit 345892) .nil) (nat_lit 194704) (nat_lit 48636) (.node (.node .nil (nat_lit 194705) (nat_lit 280162) .nil) (nat_lit 194706) (nat_lit 280162) .nil)) (nat_lit 194707) (nat_lit 66562) (.node (.node (.node .nil (nat_lit 194708) (nat_lit 48708) .nil) (nat_lit 194709) (nat_lit 48708) .nil) (nat_lit 194710) (nat_lit 29070) (.node .nil (nat_lit 194711) (nat_lit 288112) .nil))) (nat_lit 194712) (nat_lit 312244) (.node (.node (.node (.node .nil (nat_lit 194713) (nat_lit 48836) .nil) (nat_lit 194714) (nat_lit 48854) .nil) (nat_lit 194715) (nat_lit 29126) (.node (.node .nil (nat_lit 194716) (nat_lit 48948) .nil) (nat_lit 194717) (nat_lit 49050) .nil)) (nat_lit 194718) (nat_lit 49070) (.node (.node (.node .nil (nat_lit 194719) (nat_lit 49138) .nil) (nat_lit 194720) (nat_lit 49410) .nil) (nat_lit 194721) (nat_lit 29300) (.node .nil (nat_lit 194722) (nat_lit 29240) .nil)))) (nat_lit 194723) (nat_lit 49448) (.node (.node (.node (.node (.node .nil (nat_lit 194724) (nat_lit 282024) .nil) (nat_lit 194725) (nat_lit 49550) .nil) (nat_lit 194726) (nat_lit 49808) (.node (.node .nil (nat_lit 194727) (nat_lit 49816) .nil) (nat_lit 194728) (nat_lit 49820) .nil)) (nat_lit 194729) (nat_lit 49816) (.node (.node (.node .nil (nat_lit 194730) (nat_lit 49908) .nil) (nat_lit 194731) (nat_lit 49948) .nil) (nat_lit 194732) (nat_lit 50020) (.node .nil (nat_lit 194733) (nat_lit 49992) .nil))) (nat_lit 194734) (nat_lit 50014) (.node (.node (.node (.node .nil (nat_lit 194735) (nat_lit 50108) .nil) (nat_lit 194736) (nat_lit 50148) .nil) (nat_lit 194737) (nat_lit 50156) (.node (.node .nil (nat_lit 194738) (nat_lit 50208) .nil) (nat_lit 194739) (nat_lit 50230) .nil)) (nat_lit 194740) (nat_lit 50362) (.node (.node (.node .nil (nat_lit 194741) (nat_lit 50530) .nil) (nat_lit 194742) (nat_lit 50600) .nil) (nat_lit 194743) (nat_lit 50848) (.node .nil (nat_lit 194744) (nat_lit 284184) .nil)))))

def decT111100 : Tree :=
  .node (.node (.node (.node (.node (.node (.node .nil (nat_lit 194746) (nat_lit 50680) .nil) (nat_lit 194747) (nat_lit 50896) .nil) (nat_lit 194748) (nat_lit 50950) (.node (.node .nil (nat_lit 194749) (nat_lit 51144) .nil) (nat_lit 194750) (nat_lit 284642) .nil)) (nat_lit 194751) (nat_lit 51268) (.node (.node (.node .nil (nat_lit 194752) (nat_lit 51082) .nil) (nat_lit 194753) (nat_lit 51026) .nil) (nat_lit 194754) (nat_lit 29788) (.node (.node .nil (nat_lit 194755) (nat_lit 51410) .nil) (nat_lit 194756) (nat_lit 51452) .nil))) (nat_lit 194757) (nat_lit 51514) (.node (.node (.node (.node .nil (nat_lit 194758) (nat_lit 51438) .nil) (nat_lit 194759) (nat_lit 29912) .nil) (nat_lit 194760) (nat_lit 51870) (.node (.node .nil (nat_lit 194761) (nat_lit 51928) .nil) (nat_lit 194762) (nat_lit 286740) .nil)) (nat_lit 194763) (nat_lit 52166) (.node (.node (.node .nil (nat_lit 194764) (nat_lit 52720) .nil) (nat_lit 194765) (nat_lit 52370) .nil) (nat_lit 194766) (nat_lit 30258) (.node .nil (nat_lit 194767) (nat_lit 52514) .nil)))) (nat_lit 194768) (nat_lit 30224) (.node (.node (.node (.node (.node .nil (nat_lit 194769) (nat_lit 30152) .nil) (nat_lit 194770) (nat_lit 41764) .nil) (nat_lit 194771) (nat_lit 41770) (.node (.node .nil (nat_lit 194772) (nat_lit 52736) .nil) (nat_lit 194773) (nat_lit 52536) .nil)) (nat_lit 194774) (nat_lit 65882) (.node (.node (.node .nil (nat_lit 194775) (nat_lit 34738) .nil) (nat_lit 194776) (nat_lit 52782) .nil) (nat_lit 194777) (nat_lit 52790) (.node .nil (nat_lit 194778) (nat_lit 52802) .nil))) (nat_lit 194779) (nat_lit 52924) (.node (.node (.node (.node .nil (nat_lit 194780) (nat_lit 52902) .nil) (nat_lit 194781) (nat_lit 288646) .nil) (nat_lit 194782) (nat_lit 30354) (.node (.node .nil (nat_lit 194783) (nat_lit 53236) .nil) (nat_lit 194784) (nat_lit 53002) .nil)) (nat_lit 194785) (nat_lit 53412) (.node (.node (.node .nil (nat_lit 194786) (nat_lit 53514) .nil) (nat_lit 194787) (nat_lit 288986) .nil) (nat_lit 194788) (nat_lit 53532) (.node .nil (nat_lit 194789) (nat_lit 53310) .nil))))) (nat_lit 194790) (nat_lit 53800) (.node (.node (.node (.node (.node (.node .nil (nat_lit 194791) (nat_lit 30522) .nil) (nat_lit 194792) (nat_lit 53892) .nil) (nat_lit 194793) (nat_lit 54086) (.node (.node .nil (nat_lit 194794) (nat_lit 54228) .nil) (nat_lit 194795) (nat_lit 54608) .nil)) (nat_lit 194796) (nat_lit 290118) (.node (.node (.node .nil (nat_lit 194797) (nat_lit 54710) .nil) (nat_lit 194798) (nat_lit 30768) .nil) (nat_lit 194799) (nat_lit 54850) (.node (.node .nil (nat_lit 194800) (nat_lit 291150) .nil) (nat_lit 194801) (nat_lit 54952) .nil))) (nat_lit 194802) (nat_lit 30876) (.node (.node (.node (.node .nil (nat_lit 194803) (nat_lit 55012) .nil) (nat_lit 194804) (nat_lit 55102) .nil) (nat_lit 194805) (nat_lit 55156) (.node (.node .nil (nat_lit 194806) (nat_lit 55158) .nil) (nat_lit 194807) (nat_lit 292122) .nil)) (nat_lit 194808) (nat_lit 277014) (.node (.node (.node .nil (nat_lit 194809) (nat_lit 292340) .nil) (nat_lit 194810) (nat_lit 55452) .nil) (nat_lit 194811) (nat_lit 293240) (.node .nil (nat_lit 194812) (nat_lit 55678) .nil)))) (nat_lit 194813) (nat_lit 55706) (.node (.node (.node (.node (.node .nil (nat_lit 194814) (nat_lit 55502) .nil) (nat_lit 194815) (nat_lit 55852) .nil) (nat_lit 194816) (nat_lit 55932) (.node (.node .nil (nat_lit 194817) (nat_lit 56046) .nil) (nat_lit 194818) (nat_lit 55938) .nil)) (nat_lit 194819) (nat_lit 56018) (.node (.node (.node .nil (nat_lit 194820) (nat_lit 56048) .nil) (nat_lit 194821) (nat_lit 56074) .nil) (nat_lit 194822) (nat_lit 293436) (.node .nil (nat_lit 194823) (nat_lit 55912) .nil))) (nat_lit 194824) (nat_lit 56414) (.node (.node (.node (.node .nil (nat_lit 194825) (nat_lit 56540) .nil) (nat_lit 194826) (nat_lit 31334) .nil) (nat_lit 194827) (nat_lit 56726) (.node (.node .nil (nat_lit 194828) (nat_lit 56718) .nil) (nat_lit 194829) (nat_lit 294306) .nil)) (nat_lit 194830) (nat_lit 56306) (.node (.node (.node .nil (nat_lit 194831) (nat_lit 57052) .nil) (nat_lit 194832) (nat_lit 294588) .nil) (nat_lit 194833) (nat_lit 294684) (.node .nil (nat_lit 194834) (nat_lit 57228) .nil)))))

def decT111101 : Tree :=
  .node (.node (.node (.node (.node (.node (.node .nil (nat_lit 194836) (nat_lit 57404) .nil) (nat_lit 194837) (nat_lit 57398) .nil) (nat_lit 194838) (nat_lit 31532) (.node (.node .nil (nat_lit 194839) (nat_lit 57492) .nil) (nat_lit 194840) (nat_lit 57594) .nil)) (nat_lit 194841) (nat_lit 57582) (.node (.node (.node .nil (nat_lit 194842) (nat_lit 57690) .nil) (nat_lit 194843) (nat_lit 264778) .nil) (nat_lit 194844) (nat_lit 57994) (.node (.node .nil (nat_lit 194845) (nat_lit 296134) .nil) (nat_lit 194846) (nat_lit 58168) .nil))) (nat_lit 194847) (nat_lit 296790) (.node (.node (.node (.node .nil (nat_lit 194848) (nat_lit 58448) .nil) (nat_lit 194849) (nat_lit 58474) .nil) (nat_lit 194850) (nat_lit 58528) (.node (.node .nil (nat_lit 194851) (nat_lit 298000) .nil) (nat_lit 194852) (nat_lit 58624) .nil)) (nat_lit 194853) (nat_lit 58666) (.node (.node (.node .nil (nat_lit 194854) (nat_lit 298602) .nil) (nat_lit 194855) (nat_lit 299048) .nil) (nat_lit 194856) (nat_lit 59124) (.node .nil (nat_lit 194857) (nat_lit 59158) .nil)))) (nat_lit 194858) (nat_lit 32088) (.node (.node (.node (.node (.node .nil (nat_lit 194859) (nat_lit 59210) .nil) (nat_lit 194860) (nat_lit 32112) .nil) (nat_lit 194861) (nat_lit 32112) (.node (.node .nil (nat_lit 194862) (nat_lit 59534) .nil) (nat_lit 194863) (nat_lit 59576) .nil)) (nat_lit 194864) (nat_lit 59618) (.node (.node (.node .nil (nat_lit 194865) (nat_lit 59658) .nil) (nat_lit 194866) (nat_lit 59796) .nil) (nat_lit 194867) (nat_lit 32310) (.node .nil (nat_lit 194868) (nat_lit 59976) .nil))) (nat_lit 194869) (nat_lit 301164) (.node (.node (.node (.node .nil (nat_lit 194870) (nat_lit 60028) .nil) (nat_lit 194871) (nat_lit 301348) .nil) (nat_lit 194872) (nat_lit 60128) (.node (.node .nil (nat_lit 194873) (nat_lit 279358) .nil) (nat_lit 194874) (nat_lit 60448) .nil)) (nat_lit 194875) (nat_lit 302914) (.node (.node (.node .nil (nat_lit 194876) (nat_lit 302960) .nil) (nat_lit 194877) (nat_lit 303240) .nil) (nat_lit 194878) (nat_lit 32760) (.node .nil (nat_lit 194879) (nat_lit 32784) .nil))))) (nat_lit 194880) (nat_lit 60904) (.node (.node (.node (.node (.node (.node .nil (nat_lit 194881) (nat_lit 303590) .nil) (nat_lit 194882) (nat_lit 303588) .nil) (nat_lit 194883) (nat_lit 303666) (.node (.node .nil (nat_lit 194884) (nat_lit 303718) .nil) (nat_lit 194885) (nat_lit 60988) .nil)) (nat_lit 194886) (nat_lit 60990) (.node (.node (.node .nil (nat_lit 194887) (nat_lit 60990) .nil) (nat_lit 194888) (nat_lit 61076) .nil) (nat_lit 194889) (nat_lit 32882) (.node .nil (nat_lit 194890) (nat_lit 61206) .nil))) (nat_lit 194891) (nat_lit 32908) (.node (.node (.node (.node .nil (nat_lit 194892) (nat_lit 33068) .nil) (nat_lit 194893) (nat_lit 305210) .nil) (nat_lit 194894) (nat_lit 61596) (.node (.node .nil (nat_lit 194895) (nat_lit 61720) .nil) (nat_lit 194896) (nat_lit 61848) .nil)) (nat_lit 194897) (nat_lit 33222) (.node (.node (.node .nil (nat_lit 194898) (nat_lit 306252) .nil) (nat_lit 194899) (nat_lit 62124) .nil) (nat_lit 194900) (nat_lit 306484) (.node .nil (nat_lit 194901) (nat_lit 306570) .nil)))) (nat_lit 194902) (nat_lit 62238) (.node (.node (.node (.node (.node .nil (nat_lit 194903) (nat_lit 62422) .nil) (nat_lit 194904) (nat_lit 33374) .nil) (nat_lit 194905) (nat_lit 62592) (.node (.node .nil (nat_lit 194906) (nat_lit 62612) .nil) (nat_lit 194907) (nat_lit 62622) .nil)) (nat_lit 194908) (nat_lit 307960) (.node (.node (.node .nil (nat_lit 194909) (nat_lit 308558) .nil) (nat_lit 194910) (nat_lit 308558) .nil) (nat_lit 194911) (nat_lit 62940) (.node .nil (nat_lit 194912) (nat_lit 33796) .nil))) (nat_lit 194913) (nat_lit 309078) (.node (.node (.node (.node .nil (nat_lit 194914) (nat_lit 63372) .nil) (nat_lit 194915) (nat_lit 63378) .nil) (nat_lit 194916) (nat_lit 33870) (.node (.node .nil (nat_lit 194917) (nat_lit 309504) .nil) (nat_lit 194918) (nat_lit 63908) .nil)) (nat_lit 194919) (nat_lit 34112) (.node (.node (.node .nil (nat_lit 194920) (nat_lit 63952) .nil) (nat_lit 194921) (nat_lit 63942) .nil) (nat_lit 194922) (nat_lit 64000) (.node .nil (nat_lit 194923) (nat_lit 311052) .nil)))))

def decT111110 : Tree :=
  .node (.node (.node (.node (.node (.node (.node .nil (nat_lit 194925) (nat_lit 34306) .nil) (nat_lit 194926) (nat_lit 64398) .nil) (nat_lit 194927) (nat_lit 64516) (.node (.node .nil (nat_lit 194928) (nat_lit 64650) .nil) (nat_lit 194929) (nat_lit 34408) .nil)) (nat_lit 194930) (nat_lit 312400) (.node (.node (.node .nil (nat_lit 194931) (nat_lit 312462) .nil) (nat_lit 194932) (nat_lit 34482) .nil) (nat_lit 194933) (nat_lit 312754) (.node (.node .nil (nat_lit 194934) (nat_lit 65268) .nil) (nat_lit 194935) (nat_lit 312956) .nil))) (nat_lit 194936) (nat_lit 65322) (.node (.node (.node (.node .nil (nat_lit 194937) (nat_lit 65524) .nil) (nat_lit 194938) (nat_lit 65546) .nil) (nat_lit 194939) (nat_lit 313780) (.node (.node .nil (nat_lit 194940) (nat_lit 313926) .nil) (nat_lit 194941) (nat_lit 65728) .nil)) (nat_lit 194942) (nat_lit 314192) (.node (.node (.node .nil (nat_lit 194943) (nat_lit 65760) .nil) (nat_lit 194944) (nat_lit 288446) .nil) (nat_lit 194945) (nat_lit 34730) (.node .nil (nat_lit 194946) (nat_lit 65892) .nil)))) (nat_lit 194947) (nat_lit 66054) (.node (.node (.node (.node (.node .nil (nat_lit 194948) (nat_lit 34838) .nil) (nat_lit 194949) (nat_lit 66172) .nil) (nat_lit 194950) (nat_lit 46442) (.node (.node .nil (nat_lit 194951) (nat_lit 315214) .nil) (nat_lit 194952) (nat_lit 315242) .nil)) (nat_lit 194953) (nat_lit 288550) (.node (.node (.node .nil (nat_lit 194954) (nat_lit 288568) .nil) (nat_lit 194955) (nat_lit 66562) .nil) (nat_lit 194956) (nat_lit 66568) (.node .nil (nat_lit 194957) (nat_lit 73532) .nil))) (nat_lit 194958) (nat_lit 35030) (.node (.node (.node (.node .nil (nat_lit 194959) (nat_lit 66850) .nil) (nat_lit 194960) (nat_lit 66838) .nil) (nat_lit 194961) (nat_lit 66874) (.node (.node .nil (nat_lit 194962) (nat_lit 42342) .nil) (nat_lit 194963) (nat_lit 66914) .nil)) (nat_lit 194964) (nat_lit 66918) (.node (.node (.node .nil (nat_lit 194965) (nat_lit 66938) .nil) (nat_lit 194966) (nat_lit 67020) .nil) (nat_lit 194967) (nat_lit 317048) (.node .nil (nat_lit 194968) (nat_lit 67018) .nil))))) (nat_lit 194969) (nat_lit 67130) (.node (.node (.node (.node (.node (.node .nil (nat_lit 194970) (nat_lit 67270) .nil) (nat_lit 194971) (nat_lit 67418) .nil) (nat_lit 194972) (nat_lit 67142) (.node (.node .nil (nat_lit 194973) (nat_lit 67450) .nil) (nat_lit 194974) (nat_lit 67534) .nil)) (nat_lit 194975) (nat_lit 67758) (.node (.node (.node .nil (nat_lit 194976) (nat_lit 67238) .nil) (nat_lit 194977) (nat_lit 67476) .nil) (nat_lit 194978) (nat_lit 67480) (.node .nil (nat_lit 194979) (nat_lit 67512) .nil))) (nat_lit 194980) (nat_lit 317548) (.node (.node (.node (.node .nil (nat_lit 194981) (nat_lit 318166) .nil) (nat_lit 194982) (nat_lit 317866) .nil) (nat_lit 194983) (nat_lit 35414) (.node (.node .nil (nat_lit 194984) (nat_lit 68066) .nil) (nat_lit 194985) (nat_lit 68070) .nil)) (nat_lit 194986) (nat_lit 68140) (.node (.node (.node .nil (nat_lit 194987) (nat_lit 321428) .nil) (nat_lit 194988) (nat_lit 68296) .nil) (nat_lit 194989) (nat_lit 319064) (.node .nil (nat_lit 194990) (nat_lit 35514) .nil)))) (nat_lit 194991) (nat_lit 35522) (.node (.node (.node (.node (.node .nil (nat_lit 194992) (nat_lit 319330) .nil) (nat_lit 194993) (nat_lit 319908) .nil) (nat_lit 194994) (nat_lit 35542) (.node (.node .nil (nat_lit 194995) (nat_lit 68768) .nil) (nat_lit 194996) (nat_lit 68792) .nil)) (nat_lit 194997) (nat_lit 68814) (.node (.node (.node .nil (nat_lit 194998) (nat_lit 68818) .nil) (nat_lit 194999) (nat_lit 68946) .nil) (nat_lit 195000) (nat_lit 68880) (.node .nil (nat_lit 195001) (nat_lit 69148) .nil))) (nat_lit 195002) (nat_lit 69060) (.node (.node (.node (.node .nil (nat_lit 195003) (nat_lit 69362) .nil) (nat_lit 195004) (nat_lit 69200) .nil) (nat_lit 195005) (nat_lit 69334) (.node (.node .nil (nat_lit 195006) (nat_lit 69388) .nil) (nat_lit 195007) (nat_lit 35758) .nil)) (nat_lit 195008) (nat_lit 69570) (.node (.node (.node .nil (nat_lit 195009) (nat_lit 69634) .nil) (nat_lit 195010) (nat_lit 35826) .nil) (nat_lit 195011) (nat_lit 69824) (.node .nil (nat_lit 195012) (nat_lit 69830) .nil)))))

def decT111111 : Tree :=
  .node (.node (.node (.node (.node (.node (.node .nil (nat_lit 195014) (nat_lit 70062) .nil) (nat_lit 195015) (nat_lit 70076) .nil) (nat_lit 195016) (nat_lit 35946) (.node (.node .nil (nat_lit 195017) (nat_lit 70132) .nil) (nat_lit 195018) (nat_lit 26998) .nil)) (nat_lit 195019) (nat_lit 323932) (.node (.node (.node .nil (nat_lit 195020) (nat_lit 324300) .nil) (nat_lit 195021) (nat_lit 36220) .nil) (nat_lit 195022) (nat_lit 36238) (.node (.node .nil (nat_lit 195023) (nat_lit 70976) .nil) (nat_lit 195024) (nat_lit 71130) .nil))) (nat_lit 195025) (nat_lit 71444) (.node (.node (.node (.node .nil (nat_lit 195026) (nat_lit 71850) .nil) (nat_lit 195027) (nat_lit 325968) .nil) (nat_lit 195028) (nat_lit 72022) (.node (.node .nil (nat_lit 195029) (nat_lit 72066) .nil) (nat_lit 195030) (nat_lit 72246) .nil)) (nat_lit 195031) (nat_lit 72430) (.node (.node (.node .nil (nat_lit 195032) (nat_lit 327262) .nil) (nat_lit 195033) (nat_lit 266248) .nil) (nat_lit 195034) (nat_lit 72598) (.node .nil (nat_lit 195035) (nat_lit 72568) .nil)))) (nat_lit 195036) (nat_lit 72672) (.node (.node (.node (.node (.node .nil (nat_lit 195037) (nat_lit 266684) .nil) (nat_lit 195038) (nat_lit 73128) .nil) (nat_lit 195039) (nat_lit 73328) (.node (.node .nil (nat_lit 195040) (nat_lit 330660) .nil) (nat_lit 195041) (nat_lit 330714) .nil)) (nat_lit 195042) (nat_lit 74024) (.node (.node (.node .nil (nat_lit 195043) (nat_lit 74210) .nil) (nat_lit 195044) (nat_lit 74274) .nil) (nat_lit 195045) (nat_lit 331356) (.node .nil (nat_lit 195046) (nat_lit 74294) .nil))) (nat_lit 195047) (nat_lit 74864) (.node (.node (.node (.node .nil (nat_lit 195048) (nat_lit 75182) .nil) (nat_lit 195049) (nat_lit 75184) .nil) (nat_lit 195050) (nat_lit 75000) (.node (.node .nil (nat_lit 195051) (nat_lit 75762) .nil) (nat_lit 195052) (nat_lit 75818) .nil)) (nat_lit 195053) (nat_lit 333812) (.node (.node (.node .nil (nat_lit 195054) (nat_lit 76566) .nil) (nat_lit 195055) (nat_lit 37674) .nil) (nat_lit 195056) (nat_lit 76654) (.node .nil (nat_lit 195057) (nat_lit 334574) .nil))))) (nat_lit 195058) (nat_lit 37836) (.node (.node (.node (.node (.node (.node .nil (nat_lit 195059) (nat_lit 77190) .nil) (nat_lit 195060) (nat_lit 47972) .nil) (nat_lit 195061) (nat_lit 77382) (.node (.node .nil (nat_lit 195062) (nat_lit 336522) .nil) (nat_lit 195063) (nat_lit 336948) .nil)) (nat_lit 195064) (nat_lit 38108) (.node (.node (.node .nil (nat_lit 195065) (nat_lit 38124) .nil) (nat_lit 195066) (nat_lit 77760) .nil) (nat_lit 195067) (nat_lit 337940) (.node .nil (nat_lit 195068) (nat_lit 38244) .nil))) (nat_lit 195069) (nat_lit 338220) (.node (.node (.node (.node .nil (nat_lit 195070) (nat_lit 77846) .nil) (nat_lit 195071) (nat_lit 77846) .nil) (nat_lit 195072) (nat_lit 77906) (.node (.node .nil (nat_lit 195073) (nat_lit 338796) .nil) (nat_lit 195074) (nat_lit 78276) .nil)) (nat_lit 195075) (nat_lit 38502) (.node (.node (.node .nil (nat_lit 195076) (nat_lit 78418) .nil) (nat_lit 195077) (nat_lit 78670) .nil) (nat_lit 195078) (nat_lit 78724) (.node .nil (nat_lit 195079) (nat_lit 78844) .nil)))) (nat_lit 195080) (nat_lit 38812) (.node (.node (.node (.node (.node .nil (nat_lit 195081) (nat_lit 341600) .nil) (nat_lit 195082) (nat_lit 79396) .nil) (nat_lit 195083) (nat_lit 80000) (.node (.node .nil (nat_lit 195084) (nat_lit 80378) .nil) (nat_lit 195085) (nat_lit 39324) .nil)) (nat_lit 195086) (nat_lit 39386) (.node (.node (.node .nil (nat_lit 195087) (nat_lit 80590) .nil) (nat_lit 195088) (nat_lit 344476) .nil) (nat_lit 195089) (nat_lit 39408) (.node .nil (nat_lit 195090) (nat_lit 344586) .nil))) (nat_lit 195091) (nat_lit 345116) (.node (.node (.node (.node .nil (nat_lit 195092) (nat_lit 345378) .nil) (nat_lit 195093) (nat_lit 81270) .nil) (nat_lit 195094) (nat_lit 39596) (.node (.node .nil (nat_lit 195095) (nat_lit 81394) .nil) (nat_lit 195096) (nat_lit 81404) .nil)) (nat_lit 195097) (nat_lit 81418) (.node (.node (.node .nil (nat_lit 195098) (nat_lit 81438) .nil) (nat_lit 195099) (nat_lit 81452) .nil) (nat_lit 195100) (nat_lit 81526) (.node .nil (nat_lit 195101) (nat_lit 347136) .nil)))))

/-- `decomp_data`: the lowest bit tells whether `prefix` is not zero, then 21 bits for each character. -/
def decT : Tree :=
  .node (.node (.node (.node (.node (.node decT000000 (nat_lit 280) (nat_lit 3388997770) decT000001) (nat_lit 381) (nat_lit 3271557300) (.node decT000010 (nat_lit 542) (nat_lit 3271557264) decT000011)) (nat_lit 1105) (nat_lit 3254782058) (.node (.node decT000100 (nat_lit 3274) (nat_lit 13698603404) decT000101) (nat_lit 7514) (nat_lit 1247) (.node decT000110 (nat_lit 7715) (nat_lit 3250585808) decT000111))) (nat_lit 7804) (nat_lit 3233808556) (.node (.node (.node decT001000 (nat_lit 7898) (nat_lit 3225420608) decT001001) (nat_lit 7997) (nat_lit 3225435762) (.node decT001010 (nat_lit 8097) (nat_lit 3510648514) decT001011)) (nat_lit 8195) (nat_lit 65) (.node (.node decT001100 (nat_lit 8475) (nat_lit 165) decT001101) (nat_lit 8708) (nat_lit 3456123910) (.node decT001110 (nat_lit 9358) (nat_lit 192938095) decT001111)))) (nat_lit 9447) (nat_lit 241) (.node (.node (.node (.node decT010000 (nat_lit 12108) (nat_lit 54981) decT010001) (nat_lit 12197) (nat_lit 74649) (.node decT010010 (nat_lit 12472) (nat_lit 52181361006) decT010011)) (nat_lit 12656) (nat_lit 9151) (.node (.node decT010100 (nat_lit 12846) (nat_lit 360796383084625) decT010101) (nat_lit 12944) (nat_lit 52171) (.node decT010110 (nat_lit 13034) (nat_lit 24997) decT010111))) (nat_lit 13123) (nat_lit 231045579148971697267133) (.node (.node (.node decT011000 (nat_lit 13213) (nat_lit 457179335) decT011001) (nat_lit 13302) (nat_lit 229446086698205285) (.node decT011010 (nat_lit 63815) (nat_lit 61844) decT011011)) (nat_lit 63904) (nat_lit 70020) (.node (.node decT011100 (nat_lit 63994) (nat_lit 58752) decT011101) (nat_lit 64095) (nat_lit 67758) (.node decT011110 (nat_lit 64186) (nat_lit 71152) decT011111))))) (nat_lit 64336) (nat_lit 3299) (.node (.node (.node (.node (.node decT100000 (nat_lit 64426) (nat_lit 3453) decT100001) (nat_lit 64548) (nat_lit 6635392109) (.node decT100010 (nat_lit 64638) (nat_lit 6748638341) decT100011)) (nat_lit 64727) (nat_lit 6627003535) (.node (.node decT100100 (nat_lit 64817) (nat_lit 6740249703) decT100101) (nat_lit 64926) (nat_lit 14161716401146961) (.node decT100110 (nat_lit 65099) (nat_lit 16509) decT100111))) (nat_lit 65196) (nat_lit 3169) (.node (.node (.node decT101000 (nat_lit 65290) (nat_lit 85) decT101001) (nat_lit 65379) (nat_lit 24603) (.node decT101010 (nat_lit 65469) (nat_lit 25243) decT101011)) (nat_lit 119835) (nat_lit 197) (.node (.node decT101100 (nat_lit 119926) (nat_lit 159) decT101101) (nat_lit 120026) (nat_lit 151) (.node decT101110 (nat_lit 120120) (nat_lit 131) decT101111)))) (nat_lit 120216) (nat_lit 231) (.node (.node (.node (.node decT110000 (nat_lit 120306) (nat_lit 203) decT110001) (nat_lit 120395) (nat_lit 161) (.node decT110010 (nat_lit 120485) (nat_lit 1135) decT110011)) (nat_lit 120576) (nat_lit 1899) (.node (.node decT110100 (nat_lit 120666) (nat_lit 1835) decT110101) (nat_lit 120755) (nat_lit 1909) (.node decT110110 (nat_lit 126480) (nat_lit 3203) decT110111))) (nat_lit 126608) (nat_lit 3203) (.node (.node (.node decT111000 (nat_lit 127291) (nat_lit 153) decT111001) (nat_lit 194566) (nat_lit 40822) (.node decT111010 (nat_lit 194656) (nat_lit 273744) decT111011)) (nat_lit 194745) (nat_lit 50810) (.node (.node decT111100 (nat_lit 194835) (nat_lit 57458) decT111101) (nat_lit 194924) (nat_lit 64198) (.node decT111110 (nat_lit 195013) (nat_lit 322766) decT111111)))))

def pairT000 : Tree :=
  .node (.node (.node (.node (.node (.node (.node .nil (nat_lit 27) (nat_lit 8814) .nil) (nat_lit 89) (nat_lit 8800) (.node .nil (nat_lit 151) (nat_lit 8815) .nil)) (nat_lit 186) (nat_lit 192) (.node (.node .nil (nat_lit 187) (nat_lit 193) .nil) (nat_lit 188) (nat_lit 194) (.node .nil (nat_lit 189) (nat_lit 195) .nil))) (nat_lit 190) (nat_lit 256) (.node (.node (.node .nil (nat_lit 191) (nat_lit 258) .nil) (nat_lit 192) (nat_lit 550) (.node .nil (nat_lit 193) (nat_lit 196) .nil)) (nat_lit 194) (nat_lit 7842) (.node (.node .nil (nat_lit 195) (nat_lit 197) .nil) (nat_lit 197) (nat_lit 461) .nil))) (nat_lit 198) (nat_lit 512) (.node (.node (.node (.node .nil (nat_lit 199) (nat_lit 514) .nil) (nat_lit 203) (nat_lit 7840) (.node .nil (nat_lit 205) (nat_lit 7680) .nil)) (nat_lit 208) (nat_lit 260) (.node (.node .nil (nat_lit 254) (nat_lit 7682) .nil) (nat_lit 265) (nat_lit 7684) (.node .nil (nat_lit 274) (nat_lit 7686) .nil))) (nat_lit 311) (nat_lit 262) (.node (.node (.node .nil (nat_lit 312) (nat_lit 264) .nil) (nat_lit 316) (nat_lit 266) (.node .nil (nat_lit 321) (nat_lit 268) .nil)) (nat_lit 331) (nat_lit 199) (.node (.node .nil (nat_lit 378) (nat_lit 7690) .nil) (nat_lit 383) (nat_lit 270) .nil)))) (nat_lit 389) (nat_lit 7692) (.node (.node (.node (.node (.node .nil (nat_lit 393) (nat_lit 7696) .nil) (nat_lit 395) (nat_lit 7698) (.node .nil (nat_lit 398) (nat_lit 7694) .nil)) (nat_lit 434) (nat_lit 200) (.node (.node .nil (nat_lit 435) (nat_lit 201) .nil) (nat_lit 436) (nat_lit 202) (.node .nil (nat_lit 437) (nat_lit 7868) .nil))) (nat_lit 438) (nat_lit 274) (.node (.node (.node .nil (nat_lit 439) (nat_lit 276) .nil) (nat_lit 440) (nat_lit 278) (.node .nil (nat_lit 441) (nat_lit 203) .nil)) (nat_lit 442) (nat_lit 7866) (.node (.node .nil (nat_lit 445) (nat_lit 282) .nil) (nat_lit 446) (nat_lit 516) .nil))) (nat_lit 447) (nat_lit 518) (.node (.node (.node (.node .nil (nat_lit 451) (nat_lit 7864) .nil) (nat_lit 455) (nat_lit 552) (.node .nil (nat_lit 456) (nat_lit 280) .nil)) (nat_lit 457) (nat_lit 7704) (.node (.node .nil (nat_lit 459) (nat_lit 7706) .nil) (nat_lit 502) (nat_lit 7710) .nil)) (nat_lit 559) (nat_lit 500) (.node (.node (.node .nil (nat_lit 560) (nat_lit 284) .nil) (nat_lit 562) (nat_lit 7712) (.node .nil (nat_lit 563) (nat_lit 286) .nil)) (nat_lit 564) (nat_lit 288) (.node (.node .nil (nat_lit 569) (nat_lit 486) .nil) (nat_lit 579) (nat_lit 290) .nil))))) (nat_lit 622) (nat_lit 292) (.node (.node (.node (.node (.node (.node .nil (nat_lit 626) (nat_lit 7714) .nil) (nat_lit 627) (nat_lit 7718) (.node .nil (nat_lit 631) (nat_lit 542) .nil)) (nat_lit 637) (nat_lit 7716) (.node (.node .nil (nat_lit 641) (nat_lit 7720) .nil) (nat_lit 644) (nat_lit 7722) (.node .nil (nat_lit 682) (nat_lit 204) .nil))) (nat_lit 683) (nat_lit 205) (.node (.node (.node .nil (nat_lit 684) (nat_lit 206) .nil) (nat_lit 685) (nat_lit 296) (.node .nil (nat_lit 686) (nat_lit 298) .nil)) (nat_lit 687) (nat_lit 300) (.node (.node .nil (nat_lit 688) (nat_lit 304) .nil) (nat_lit 689) (nat_lit 207) .nil))) (nat_lit 690) (nat_lit 7880) (.node (.node (.node (.node .nil (nat_lit 693) (nat_lit 463) .nil) (nat_lit 694) (nat_lit 520) (.node .nil (nat_lit 695) (nat_lit 522) .nil)) (nat_lit 699) (nat_lit 7882) (.node (.node .nil (nat_lit 704) (nat_lit 302) .nil) (nat_lit 707) (nat_lit 7724) (.node .nil (nat_lit 746) (nat_lit 308) .nil))) (nat_lit 807) (nat_lit 7728) (.node (.node (.node .nil (nat_lit 817) (nat_lit 488) .nil) (nat_lit 823) (nat_lit 7730) (.node .nil (nat_lit 827) (nat_lit 310) .nil)) (nat_lit 832) (nat_lit 7732) (.node (.node .nil (nat_lit 869) (nat_lit 313) .nil) (nat_lit 879) (nat_lit 317) .nil)))) (nat_lit 885) (nat_lit 7734) (.node (.node (.node (.node (.node .nil (nat_lit 889) (nat_lit 315) .nil) (nat_lit 891) (nat_lit 7740) (.node .nil (nat_lit 894) (nat_lit 7738) .nil)) (nat_lit 931) (nat_lit 7742) (.node (.node .nil (nat_lit 936) (nat_lit 7744) .nil) (nat_lit 947) (nat_lit 7746) (.node .nil (nat_lit 992) (nat_lit 504) .nil))) (nat_lit 993) (nat_lit 323) (.node (.node (.node .nil (nat_lit 995) (nat_lit 209) .nil) (nat_lit 998) (nat_lit 7748) (.node .nil (nat_lit 1003) (nat_lit 327) .nil)) (nat_lit 1009) (nat_lit 7750) (.node (.node .nil (nat_lit 1013) (nat_lit 325) .nil) (nat_lit 1015) (nat_lit 7754) .nil))) (nat_lit 1018) (nat_lit 7752) (.node (.node (.node (.node .nil (nat_lit 1054) (nat_lit 210) .nil) (nat_lit 1055) (nat_lit 211) (.node .nil (nat_lit 1056) (nat_lit 212) .nil)) (nat_lit 1057) (nat_lit 213) (.node (.node .nil (nat_lit 1058) (nat_lit 332) .nil) (nat_lit 1059) (nat_lit 334) .nil)) (nat_lit 1060) (nat_lit 558) (.node (.node (.node .nil (nat_lit 1061) (nat_lit 214) .nil) (nat_lit 1062) (nat_lit 7886) (.node .nil (nat_lit 1064) (nat_lit 336) .nil)) (nat_lit 1065) (nat_lit 465) (.node (.node .nil (nat_lit 1066) (nat_lit 524) .nil) (nat_lit 1067) (nat_lit 526) .nil)))))

def pairT001 : Tree :=
  .node (.node (.node (.node (.node (.node (.node .nil (nat_lit 1071) (nat_lit 7884) .nil) (nat_lit 1076) (nat_lit 490) (.node .nil (nat_lit 1117) (nat_lit 7764) .nil)) (nat_lit 1122) (nat_lit 7766) (.node (.node .nil (nat_lit 1179) (nat_lit 340) .nil) (nat_lit 1184) (nat_lit 7768) (.node .nil (nat_lit 1189) (nat_lit 344) .nil))) (nat_lit 1190) (nat_lit 528) (.node (.node (.node .nil (nat_lit 1191) (nat_lit 530) .nil) (nat_lit 1195) (nat_lit 7770) (.node .nil (nat_lit 1199) (nat_lit 342) .nil)) (nat_lit 1204) (nat_lit 7774) (.node (.node .nil (nat_lit 1241) (nat_lit 346) .nil) (nat_lit 1242) (nat_lit 348) .nil))) (nat_lit 1246) (nat_lit 7776) (.node (.node (.node (.node .nil (nat_lit 1251) (nat_lit 352) .nil) (nat_lit 1257) (nat_lit 7778) (.node .nil (nat_lit 1260) (nat_lit 536) .nil)) (nat_lit 1261) (nat_lit 350) (.node (.node .nil (nat_lit 1308) (nat_lit 7786) .nil) (nat_lit 1313) (nat_lit 356) (.node .nil (nat_lit 1319) (nat_lit 7788) .nil))) (nat_lit 1322) (nat_lit 538) (.node (.node (.node .nil (nat_lit 1323) (nat_lit 354) .nil) (nat_lit 1325) (nat_lit 7792) (.node .nil (nat_lit 1328) (nat_lit 7790) .nil)) (nat_lit 1364) (nat_lit 217) (.node (.node .nil (nat_lit 1365) (nat_lit 218) .nil) (nat_lit 1366) (nat_lit 219) .nil)))) (nat_lit 1367) (nat_lit 360) (.node (.node (.node (.node (.node .nil (nat_lit 1368) (nat_lit 362) .nil) (nat_lit 1369) (nat_lit 364) (.node .nil (nat_lit 1371) (nat_lit 220) .nil)) (nat_lit 1372) (nat_lit 7910) (.node (.node .nil (nat_lit 1373) (nat_lit 366) .nil) (nat_lit 1374) (nat_lit 368) (.node .nil (nat_lit 1375) (nat_lit 467) .nil))) (nat_lit 1376) (nat_lit 532) (.node (.node (.node .nil (nat_lit 1377) (nat_lit 534) .nil) (nat_lit 1380) (nat_lit 431) (.node .nil (nat_lit 1381) (nat_lit 7908) .nil)) (nat_lit 1382) (nat_lit 7794) (.node (.node .nil (nat_lit 1386) (nat_lit 370) .nil) (nat_lit 1387) (nat_lit 7798) .nil))) (nat_lit 1389) (nat_lit 7796) (.node (.node (.node (.node .nil (nat_lit 1429) (nat_lit 7804) .nil) (nat_lit 1443) (nat_lit 7806) (.node .nil (nat_lit 1488) (nat_lit 7808) .nil)) (nat_lit 1489) (nat_lit 7810) (.node (.node .nil (nat_lit 1490) (nat_lit 372) .nil) (nat_lit 1494) (nat_lit 7814) .nil)) (nat_lit 1495) (nat_lit 7812) (.node (.node (.node .nil (nat_lit 1505) (nat_lit 7816) .nil) (nat_lit 1556) (nat_lit 7818) (.node .nil (nat_lit 1557) (nat_lit 7820) .nil)) (nat_lit 1612) (nat_lit 7922) (.node (.node .nil (nat_lit 1613) (nat_lit 221) .nil) (nat_lit 1614) (nat_lit 374) .nil))))) (nat_lit 1615) (nat_lit 7928) (.node (.node (.node (.node (.node (.node .nil (nat_lit 1616) (nat_lit 562) .nil) (nat_lit 1618) (nat_lit 7822) (.node .nil (nat_lit 1619) (nat_lit 376) .nil)) (nat_lit 1620) (nat_lit 7926) (.node (.node .nil (nat_lit 1629) (nat_lit 7924) .nil) (nat_lit 1675) (nat_lit 377) (.node .nil (nat_lit 1676) (nat_lit 7824) .nil))) (nat_lit 1680) (nat_lit 379) (.node (.node (.node .nil (nat_lit 1685) (nat_lit 381) .nil) (nat_lit 1691) (nat_lit 7826) (.node .nil (nat_lit 1700) (nat_lit 7828) .nil)) (nat_lit 1736) (nat_lit 224) (.node (.node .nil (nat_lit 1737) (nat_lit 225) .nil) (nat_lit 1738) (nat_lit 226) .nil))) (nat_lit 1739) (nat_lit 227) (.node (.node (.node (.node .nil (nat_lit 1740) (nat_lit 257) .nil) (nat_lit 1741) (nat_lit 259) (.node .nil (nat_lit 1742) (nat_lit 551) .nil)) (nat_lit 1743) (nat_lit 228) (.node (.node .nil (nat_lit 1744) (nat_lit 7843) .nil) (nat_lit 1745) (nat_lit 229) (.node .nil (nat_lit 1747) (nat_lit 462) .nil))) (nat_lit 1748) (nat_lit 513) (.node (.node (.node .nil (nat_lit 1749) (nat_lit 515) .nil) (nat_lit 1753) (nat_lit 7841) (.node .nil (nat_lit 1755) (nat_lit 7681) .nil)) (nat_lit 1758) (nat_lit 261) (.node (.node .nil (nat_lit 1804) (nat_lit 7683) .nil) (nat_lit 1815) (nat_lit 7685) .nil)))) (nat_lit 1824) (nat_lit 7687) (.node (.node (.node (.node (.node .nil (nat_lit 1861) (nat_lit 263) .nil) (nat_lit 1862) (nat_lit 265) (.node .nil (nat_lit 1866) (nat_lit 267) .nil)) (nat_lit 1871) (nat_lit 269) (.node (.node .nil (nat_lit 1881) (nat_lit 231) .nil) (nat_lit 1928) (nat_lit 7691) (.node .nil (nat_lit 1933) (nat_lit 271) .nil))) (nat_lit 1939) (nat_lit 7693) (.node (.node (.node .nil (nat_lit 1943) (nat_lit 7697) .nil) (nat_lit 1945) (nat_lit 7699) (.node .nil (nat_lit 1948) (nat_lit 7695) .nil)) (nat_lit 1984) (nat_lit 232) (.node (.node .nil (nat_lit 1985) (nat_lit 233) .nil) (nat_lit 1986) (nat_lit 234) .nil))) (nat_lit 1987) (nat_lit 7869) (.node (.node (.node (.node .nil (nat_lit 1988) (nat_lit 275) .nil) (nat_lit 1989) (nat_lit 277) (.node .nil (nat_lit 1990) (nat_lit 279) .nil)) (nat_lit 1991) (nat_lit 235) (.node (.node .nil (nat_lit 1992) (nat_lit 7867) .nil) (nat_lit 1995) (nat_lit 283) .nil)) (nat_lit 1996) (nat_lit 517) (.node (.node (.node .nil (nat_lit 1997) (nat_lit 519) .nil) (nat_lit 2001) (nat_lit 7865) (.node .nil (nat_lit 2005) (nat_lit 553) .nil)) (nat_lit 2006) (nat_lit 281) (.node (.node .nil (nat_lit 2007) (nat_lit 7705) .nil) (nat_lit 2009) (nat_lit 7707) .nil)))))

def pairT010 : Tree :=
  .node (.node (.node (.node (.node (.node (.node .nil (nat_lit 2109) (nat_lit 501) .nil) (nat_lit 2110) (nat_lit 285) (.node .nil (nat_lit 2112) (nat_lit 7713) .nil)) (nat_lit 2113) (nat_lit 287) (.node (.node .nil (nat_lit 2114) (nat_lit 289) .nil) (nat_lit 2119) (nat_lit 487) (.node .nil (nat_lit 2129) (nat_lit 291) .nil))) (nat_lit 2172) (nat_lit 293) (.node (.node (.node .nil (nat_lit 2176) (nat_lit 7715) .nil) (nat_lit 2177) (nat_lit 7719) (.node .nil (nat_lit 2181) (nat_lit 543) .nil)) (nat_lit 2187) (nat_lit 7717) (.node (.node .nil (nat_lit 2191) (nat_lit 7721) .nil) (nat_lit 2194) (nat_lit 7723) .nil))) (nat_lit 2196) (nat_lit 7830) (.node (.node (.node (.node .nil (nat_lit 2232) (nat_lit 236) .nil) (nat_lit 2233) (nat_lit 237) (.node .nil (nat_lit 2234) (nat_lit 238) .nil)) (nat_lit 2235) (nat_lit 297) (.node (.node .nil (nat_lit 2236) (nat_lit 299) .nil) (nat_lit 2237) (nat_lit 301) (.node .nil (nat_lit 2239) (nat_lit 239) .nil))) (nat_lit 2240) (nat_lit 7881) (.node (.node (.node .nil (nat_lit 2243) (nat_lit 464) .nil) (nat_lit 2244) (nat_lit 521) (.node .nil (nat_lit 2245) (nat_lit 523) .nil)) (nat_lit 2249) (nat_lit 7883) (.node (.node .nil (nat_lit 2254) (nat_lit 303) .nil) (nat_lit 2257) (nat_lit 7725) .nil)))) (nat_lit 2296) (nat_lit 309) (.node (.node (.node (.node (.node .nil (nat_lit 2305) (nat_lit 496) .nil) (nat_lit 2357) (nat_lit 7729) (.node .nil (nat_lit 2367) (nat_lit 489) .nil)) (nat_lit 2373) (nat_lit 7731) (.node (.node .nil (nat_lit 2377) (nat_lit 311) .nil) (nat_lit 2382) (nat_lit 7733) (.node .nil (nat_lit 2419) (nat_lit 314) .nil))) (nat_lit 2429) (nat_lit 318) (.node (.node (.node .nil (nat_lit 2435) (nat_lit 7735) .nil) (nat_lit 2439) (nat_lit 316) (.node .nil (nat_lit 2441) (nat_lit 7741) .nil)) (nat_lit 2444) (nat_lit 7739) (.node (.node .nil (nat_lit 2481) (nat_lit 7743) .nil) (nat_lit 2486) (nat_lit 7745) .nil))) (nat_lit 2497) (nat_lit 7747) (.node (.node (.node (.node .nil (nat_lit 2542) (nat_lit 505) .nil) (nat_lit 2543) (nat_lit 324) (.node .nil (nat_lit 2545) (nat_lit 241) .nil)) (nat_lit 2548) (nat_lit 7749) (.node (.node .nil (nat_lit 2553) (nat_lit 328) .nil) (nat_lit 2559) (nat_lit 7751) .nil)) (nat_lit 2563) (nat_lit 326) (.node (.node (.node .nil (nat_lit 2565) (nat_lit 7755) .nil) (nat_lit 2568) (nat_lit 7753) (.node .nil (nat_lit 2604) (nat_lit 242) .nil)) (nat_lit 2605) (nat_lit 243) (.node (.node .nil (nat_lit 2606) (nat_lit 244) .nil) (nat_lit 2607) (nat_lit 245) .nil))))) (nat_lit 2608) (nat_lit 333) (.node (.node (.node (.node (.node (.node .nil (nat_lit 2609) (nat_lit 335) .nil) (nat_lit 2610) (nat_lit 559) (.node .nil (nat_lit 2611) (nat_lit 246) .nil)) (nat_lit 2612) (nat_lit 7887) (.node (.node .nil (nat_lit 2614) (nat_lit 337) .nil) (nat_lit 2615) (nat_lit 466) (.node .nil (nat_lit 2616) (nat_lit 525) .nil))) (nat_lit 2617) (nat_lit 527) (.node (.node (.node .nil (nat_lit 2620) (nat_lit 417) .nil) (nat_lit 2621) (nat_lit 7885) (.node .nil (nat_lit 2626) (nat_lit 491) .nil)) (nat_lit 2667) (nat_lit 7765) (.node (.node .nil (nat_lit 2672) (nat_lit 7767) .nil) (nat_lit 2729) (nat_lit 341) .nil))) (nat_lit 2734) (nat_lit 7769) (.node (.node (.node (.node .nil (nat_lit 2739) (nat_lit 345) .nil) (nat_lit 2740) (nat_lit 529) (.node .nil (nat_lit 2741) (nat_lit 531) .nil)) (nat_lit 2745) (nat_lit 7771) (.node (.node .nil (nat_lit 2749) (nat_lit 343) .nil) (nat_lit 2754) (nat_lit 7775) (.node .nil (nat_lit 2791) (nat_lit 347) .nil))) (nat_lit 2792) (nat_lit 349) (.node (.node (.node .nil (nat_lit 2796) (nat_lit 7777) .nil) (nat_lit 2801) (nat_lit 353) (.node .nil (nat_lit 2807) (nat_lit 7779) .nil)) (nat_lit 2810) (nat_lit 537) (.node (.node .nil (nat_lit 2811) (nat_lit 351) .nil) (nat_lit 2858) (nat_lit 7787) .nil)))) (nat_lit 2859) (nat_lit 7831) (.node (.node (.node (.node (.node .nil (nat_lit 2863) (nat_lit 357) .nil) (nat_lit 2869) (nat_lit 7789) (.node .nil (nat_lit 2872) (nat_lit 539) .nil)) (nat_lit 2873) (nat_lit 355) (.node (.node .nil (nat_lit 2875) (nat_lit 7793) .nil) (nat_lit 2878) (nat_lit 7791) (.node .nil (nat_lit 2914) (nat_lit 249) .nil))) (nat_lit 2915) (nat_lit 250) (.node (.node (.node .nil (nat_lit 2916) (nat_lit 251) .nil) (nat_lit 2917) (nat_lit 361) (.node .nil (nat_lit 2918) (nat_lit 363) .nil)) (nat_lit 2919) (nat_lit 365) (.node (.node .nil (nat_lit 2921) (nat_lit 252) .nil) (nat_lit 2922) (nat_lit 7911) .nil))) (nat_lit 2923) (nat_lit 367) (.node (.node (.node (.node .nil (nat_lit 2924) (nat_lit 369) .nil) (nat_lit 2925) (nat_lit 468) (.node .nil (nat_lit 2926) (nat_lit 533) .nil)) (nat_lit 2927) (nat_lit 535) (.node (.node .nil (nat_lit 2930) (nat_lit 432) .nil) (nat_lit 2931) (nat_lit 7909) .nil)) (nat_lit 2932) (nat_lit 7795) (.node (.node (.node .nil (nat_lit 2936) (nat_lit 371) .nil) (nat_lit 2937) (nat_lit 7799) (.node .nil (nat_lit 2939) (nat_lit 7797) .nil)) (nat_lit 2979) (nat_lit 7805) (.node (.node .nil (nat_lit 2993) (nat_lit 7807) .nil) (nat_lit 3038) (nat_lit 7809) .nil)))))

def pairT011 : Tree :=
  .node (.node (.node (.node (.node (.node (.node .nil (nat_lit 3040) (nat_lit 373) .nil) (nat_lit 3044) (nat_lit 7815) (.node .nil (nat_lit 3045) (nat_lit 7813) .nil)) (nat_lit 3047) (nat_lit 7832) (.node (.node .nil (nat_lit 3055) (nat_lit 7817) .nil) (nat_lit 3106) (nat_lit 7819) (.node .nil (nat_lit 3107) (nat_lit 7821) .nil))) (nat_lit 3162) (nat_lit 7923) (.node (.node (.node .nil (nat_lit 3163) (nat_lit 253) .nil) (nat_lit 3164) (nat_lit 375) (.node .nil (nat_lit 3165) (nat_lit 7929) .nil)) (nat_lit 3166) (nat_lit 563) (.node (.node .nil (nat_lit 3168) (nat_lit 7823) .nil) (nat_lit 3169) (nat_lit 255) .nil))) (nat_lit 3170) (nat_lit 7927) (.node (.node (.node (.node .nil (nat_lit 3171) (nat_lit 7833) .nil) (nat_lit 3179) (nat_lit 7925) (.node .nil (nat_lit 3225) (nat_lit 378) .nil)) (nat_lit 3226) (nat_lit 7825) (.node (.node .nil (nat_lit 3230) (nat_lit 380) .nil) (nat_lit 3235) (nat_lit 382) (.node .nil (nat_lit 3241) (nat_lit 7827) .nil))) (nat_lit 3250) (nat_lit 7829) (.node (.node (.node .nil (nat_lit 3286) (nat_lit 8173) .nil) (nat_lit 3287) (nat_lit 901) (.node .nil (nat_lit 3314) (nat_lit 8129) .nil)) (nat_lit 3348) (nat_lit 7846) (.node (.node .nil (nat_lit 3349) (nat_lit 7844) .nil) (nat_lit 3351) (nat_lit 7850) .nil)))) (nat_lit 3356) (nat_lit 7848) (.node (.node (.node (.node (.node .nil (nat_lit 3414) (nat_lit 478) .nil) (nat_lit 3473) (nat_lit 506) (.node .nil (nat_lit 3535) (nat_lit 508) .nil)) (nat_lit 3538) (nat_lit 482) (.node (.node .nil (nat_lit 3597) (nat_lit 7688) .nil) (nat_lit 3658) (nat_lit 7872) (.node .nil (nat_lit 3659) (nat_lit 7870) .nil))) (nat_lit 3661) (nat_lit 7876) (.node (.node (.node .nil (nat_lit 3666) (nat_lit 7874) .nil) (nat_lit 3721) (nat_lit 7726) (.node .nil (nat_lit 3782) (nat_lit 7890) .nil)) (nat_lit 3783) (nat_lit 7888) (.node (.node .nil (nat_lit 3785) (nat_lit 7894) .nil) (nat_lit 3790) (nat_lit 7892) .nil))) (nat_lit 3845) (nat_lit 7756) (.node (.node (.node (.node .nil (nat_lit 3848) (nat_lit 556) .nil) (nat_lit 3851) (nat_lit 7758) (.node .nil (nat_lit 3910) (nat_lit 554) .nil)) (nat_lit 3969) (nat_lit 510) (.node (.node .nil (nat_lit 4030) (nat_lit 475) .nil) (nat_lit 4031) (nat_lit 471) .nil)) (nat_lit 4034) (nat_lit 469) (.node (.node (.node .nil (nat_lit 4041) (nat_lit 473) .nil) (nat_lit 4092) (nat_lit 7847) (.node .nil (nat_lit 4093) (nat_lit 7845) .nil)) (nat_lit 4095) (nat_lit 7851) (.node (.node .nil (nat_lit 4100) (nat_lit 7849) .nil) (nat_lit 4158) (nat_lit 479) .nil))))) (nat_lit 4217) (nat_lit 507) (.node (.node (.node (.node (.node (.node .nil (nat_lit 4279) (nat_lit 509) .nil) (nat_lit 4282) (nat_lit 483) (.node .nil (nat_lit 4341) (nat_lit 7689) .nil)) (nat_lit 4402) (nat_lit 7873) (.node (.node .nil (nat_lit 4403) (nat_lit 7871) .nil) (nat_lit 4405) (nat_lit 7877) (.node .nil (nat_lit 4410) (nat_lit 7875) .nil))) (nat_lit 4465) (nat_lit 7727) (.node (.node (.node .nil (nat_lit 4526) (nat_lit 7891) .nil) (nat_lit 4527) (nat_lit 7889) (.node .nil (nat_lit 4529) (nat_lit 7895) .nil)) (nat_lit 4534) (nat_lit 7893) (.node (.node .nil (nat_lit 4589) (nat_lit 7757) .nil) (nat_lit 4592) (nat_lit 557) .nil))) (nat_lit 4595) (nat_lit 7759) (.node (.node (.node (.node .nil (nat_lit 4654) (nat_lit 555) .nil) (nat_lit 4713) (nat_lit 511) (.node .nil (nat_lit 4774) (nat_lit 476) .nil)) (nat_lit 4775) (nat_lit 472) (.node (.node .nil (nat_lit 4778) (nat_lit 470) .nil) (nat_lit 4785) (nat_lit 474) .nil)) (nat_lit 4836) (nat_lit 7856) (.node (.node (.node .nil (nat_lit 4837) (nat_lit 7854) .nil) (nat_lit 4839) (nat_lit 7860) (.node .nil (nat_lit 4844) (nat_lit 7858) .nil)) (nat_lit 4898) (nat_lit 7857) (.node (.node .nil (nat_lit 4899) (nat_lit 7855) .nil) (nat_lit 4901) (nat_lit 7861) .nil)))) (nat_lit 4906) (nat_lit 7859) (.node (.node (.node (.node (.node .nil (nat_lit 4960) (nat_lit 7700) .nil) (nat_lit 4961) (nat_lit 7702) (.node .nil (nat_lit 5022) (nat_lit 7701) .nil)) (nat_lit 5023) (nat_lit 7703) (.node (.node .nil (nat_lit 5084) (nat_lit 7760) .nil) (nat_lit 5085) (nat_lit 7762) (.node .nil (nat_lit 5146) (nat_lit 7761) .nil))) (nat_lit 5147) (nat_lit 7763) (.node (.node (.node .nil (nat_lit 5214) (nat_lit 7780) .nil) (nat_lit 5276) (nat_lit 7781) (.node .nil (nat_lit 5338) (nat_lit 7782) .nil)) (nat_lit 5400) (nat_lit 7783) (.node (.node .nil (nat_lit 5457) (nat_lit 7800) .nil) (nat_lit 5519) (nat_lit 7801) .nil))) (nat_lit 5587) (nat_lit 7802) (.node (.node (.node (.node .nil (nat_lit 5649) (nat_lit 7803) .nil) (nat_lit 5710) (nat_lit 7835) (.node .nil (nat_lit 5766) (nat_lit 7900) .nil)) (nat_lit 5767) (nat_lit 7898) (.node (.node .nil (nat_lit 5769) (nat_lit 7904) .nil) (nat_lit 5774) (nat_lit 7902) .nil)) (nat_lit 5783) (nat_lit 7906) (.node (.node (.node .nil (nat_lit 5828) (nat_lit 7901) .nil) (nat_lit 5829) (nat_lit 7899) (.node .nil (nat_lit 5831) (nat_lit 7905) .nil)) (nat_lit 5836) (nat_lit 7903) (.node (.node .nil (nat_lit 5845) (nat_lit 7907) .nil) (nat_lit 5890) (nat_lit 7914) .nil)))))

def pairT100 : Tree :=
  .node (.node (.node (.node (.node (.node (.node .nil (nat_lit 5893) (nat_lit 7918) .nil) (nat_lit 5898) (nat_lit 7916) (.node .nil (nat_lit 5907) (nat_lit 7920) .nil)) (nat_lit 5952) (nat_lit 7915) (.node (.node .nil (nat_lit 5953) (nat_lit 7913) .nil) (nat_lit 5955) (nat_lit 7919) (.node .nil (nat_lit 5960) (nat_lit 7917) .nil))) (nat_lit 5969) (nat_lit 7921) (.node (.node (.node .nil (nat_lit 6025) (nat_lit 494) .nil) (nat_lit 6080) (nat_lit 492) (.node .nil (nat_lit 6142) (nat_lit 493) .nil)) (nat_lit 6204) (nat_lit 480) (.node (.node .nil (nat_lit 6266) (nat_lit 481) .nil) (nat_lit 6329) (nat_lit 7708) .nil))) (nat_lit 6391) (nat_lit 7709) (.node (.node (.node (.node .nil (nat_lit 6452) (nat_lit 560) .nil) (nat_lit 6514) (nat_lit 561) (.node .nil (nat_lit 6583) (nat_lit 495) .nil)) (nat_lit 6634) (nat_lit 8122) (.node (.node .nil (nat_lit 6635) (nat_lit 902) .nil) (nat_lit 6638) (nat_lit 8121) (.node .nil (nat_lit 6639) (nat_lit 8120) .nil))) (nat_lit 6648) (nat_lit 7944) (.node (.node (.node .nil (nat_lit 6649) (nat_lit 7945) .nil) (nat_lit 6663) (nat_lit 8124) (.node .nil (nat_lit 6696) (nat_lit 8136) .nil)) (nat_lit 6697) (nat_lit 904) (.node (.node .nil (nat_lit 6710) (nat_lit 7960) .nil) (nat_lit 6711) (nat_lit 7961) .nil)))) (nat_lit 6758) (nat_lit 8138) (.node (.node (.node (.node (.node .nil (nat_lit 6759) (nat_lit 905) .nil) (nat_lit 6772) (nat_lit 7976) (.node .nil (nat_lit 6773) (nat_lit 7977) .nil)) (nat_lit 6787) (nat_lit 8140) (.node (.node .nil (nat_lit 6820) (nat_lit 8154) .nil) (nat_lit 6821) (nat_lit 906) (.node .nil (nat_lit 6824) (nat_lit 8153) .nil))) (nat_lit 6825) (nat_lit 8152) (.node (.node (.node .nil (nat_lit 6827) (nat_lit 938) .nil) (nat_lit 6834) (nat_lit 7992) (.node .nil (nat_lit 6835) (nat_lit 7993) .nil)) (nat_lit 6882) (nat_lit 8184) (.node (.node .nil (nat_lit 6883) (nat_lit 908) .nil) (nat_lit 6896) (nat_lit 8008) .nil))) (nat_lit 6897) (nat_lit 8009) (.node (.node (.node (.node .nil (nat_lit 6959) (nat_lit 8172) .nil) (nat_lit 7006) (nat_lit 8170) (.node .nil (nat_lit 7007) (nat_lit 910) .nil)) (nat_lit 7010) (nat_lit 8169) (.node (.node .nil (nat_lit 7011) (nat_lit 8168) .nil) (nat_lit 7013) (nat_lit 939) .nil)) (nat_lit 7021) (nat_lit 8025) (.node (.node (.node .nil (nat_lit 7068) (nat_lit 8186) .nil) (nat_lit 7069) (nat_lit 911) (.node .nil (nat_lit 7082) (nat_lit 8040) .nil)) (nat_lit 7083) (nat_lit 8041) (.node (.node .nil (nat_lit 7097) (nat_lit 8188) .nil) (nat_lit 7159) (nat_lit 8116) .nil))))) (nat_lit 7221) (nat_lit 8132) (.node (.node (.node (.node (.node (.node .nil (nat_lit 7254) (nat_lit 8048) .nil) (nat_lit 7255) (nat_lit 940) (.node .nil (nat_lit 7258) (nat_lit 8113) .nil)) (nat_lit 7259) (nat_lit 8112) (.node (.node .nil (nat_lit 7268) (nat_lit 7936) .nil) (nat_lit 7269) (nat_lit 7937) (.node .nil (nat_lit 7282) (nat_lit 8118) .nil))) (nat_lit 7283) (nat_lit 8115) (.node (.node (.node .nil (nat_lit 7316) (nat_lit 8050) .nil) (nat_lit 7317) (nat_lit 941) (.node .nil (nat_lit 7330) (nat_lit 7952) .nil)) (nat_lit 7331) (nat_lit 7953) (.node (.node .nil (nat_lit 7378) (nat_lit 8052) .nil) (nat_lit 7379) (nat_lit 942) .nil))) (nat_lit 7392) (nat_lit 7968) (.node (.node (.node (.node .nil (nat_lit 7393) (nat_lit 7969) .nil) (nat_lit 7406) (nat_lit 8134) (.node .nil (nat_lit 7407) (nat_lit 8131) .nil)) (nat_lit 7440) (nat_lit 8054) (.node (.node .nil (nat_lit 7441) (nat_lit 943) .nil) (nat_lit 7444) (nat_lit 8145) (.node .nil (nat_lit 7445) (nat_lit 8144) .nil))) (nat_lit 7447) (nat_lit 970) (.node (.node (.node .nil (nat_lit 7454) (nat_lit 7984) .nil) (nat_lit 7455) (nat_lit 7985) (.node .nil (nat_lit 7468) (nat_lit 8150) .nil)) (nat_lit 7502) (nat_lit 8056) (.node (.node .nil (nat_lit 7503) (nat_lit 972) .nil) (nat_lit 7516) (nat_lit 8000) .nil)))) (nat_lit 7517) (nat_lit 8001) (.node (.node (.node (.node (.node .nil (nat_lit 7578) (nat_lit 8164) .nil) (nat_lit 7579) (nat_lit 8165) (.node .nil (nat_lit 7626) (nat_lit 8058) .nil)) (nat_lit 7627) (nat_lit 973) (.node (.node .nil (nat_lit 7630) (nat_lit 8161) .nil) (nat_lit 7631) (nat_lit 8160) (.node .nil (nat_lit 7633) (nat_lit 971) .nil))) (nat_lit 7640) (nat_lit 8016) (.node (.node (.node .nil (nat_lit 7641) (nat_lit 8017) .nil) (nat_lit 7654) (nat_lit 8166) (.node .nil (nat_lit 7688) (nat_lit 8060) .nil)) (nat_lit 7689) (nat_lit 974) (.node (.node .nil (nat_lit 7702) (nat_lit 8032) .nil) (nat_lit 7703) (nat_lit 8033) .nil))) (nat_lit 7716) (nat_lit 8182) (.node (.node (.node (.node .nil (nat_lit 7717) (nat_lit 8179) .nil) (nat_lit 7750) (nat_lit 8146) (.node .nil (nat_lit 7751) (nat_lit 912) .nil)) (nat_lit 7778) (nat_lit 8151) (.node (.node .nil (nat_lit 7812) (nat_lit 8162) .nil) (nat_lit 7813) (nat_lit 944) .nil)) (nat_lit 7840) (nat_lit 8167) (.node (.node (.node .nil (nat_lit 7903) (nat_lit 8180) .nil) (nat_lit 7937) (nat_lit 979) (.node .nil (nat_lit 7943) (nat_lit 980) .nil)) (nat_lit 8005) (nat_lit 1031) (.node (.node .nil (nat_lit 8065) (nat_lit 1232) .nil) (nat_lit 8067) (nat_lit 1234) .nil)))))

def pairT101 : Tree :=
  .node (.node (.node (.node (.node (.node (.node .nil (nat_lit 8184) (nat_lit 1024) .nil) (nat_lit 8189) (nat_lit 1238) (.node .nil (nat_lit 8191) (nat_lit 1025) .nil)) (nat_lit 8251) (nat_lit 1217) (.node (.node .nil (nat_lit 8253) (nat_lit 1244) .nil) (nat_lit 8315) (nat_lit 1246) (.node .nil (nat_lit 8370) (nat_lit 1037) .nil))) (nat_lit 8374) (nat_lit 1250) (.node (.node (.node .nil (nat_lit 8375) (nat_lit 1049) .nil) (nat_lit 8377) (nat_lit 1252) (.node .nil (nat_lit 8433) (nat_lit 1036) .nil)) (nat_lit 8501) (nat_lit 1254) (.node (.node .nil (nat_lit 8560) (nat_lit 1262) .nil) (nat_lit 8561) (nat_lit 1038) .nil))) (nat_lit 8563) (nat_lit 1264) (.node (.node (.node (.node .nil (nat_lit 8566) (nat_lit 1266) .nil) (nat_lit 8625) (nat_lit 1268) (.node .nil (nat_lit 8687) (nat_lit 1272) .nil)) (nat_lit 8749) (nat_lit 1260) (.node (.node .nil (nat_lit 8809) (nat_lit 1233) .nil) (nat_lit 8811) (nat_lit 1235) (.node .nil (nat_lit 8867) (nat_lit 1107) .nil))) (nat_lit 8928) (nat_lit 1104) (.node (.node (.node .nil (nat_lit 8933) (nat_lit 1239) .nil) (nat_lit 8935) (nat_lit 1105) (.node .nil (nat_lit 8995) (nat_lit 1218) .nil)) (nat_lit 8997) (nat_lit 1245) (.node (.node .nil (nat_lit 9059) (nat_lit 1247) .nil) (nat_lit 9114) (nat_lit 1117) .nil)))) (nat_lit 9118) (nat_lit 1251) (.node (.node (.node (.node (.node .nil (nat_lit 9119) (nat_lit 1081) .nil) (nat_lit 9121) (nat_lit 1253) (.node .nil (nat_lit 9177) (nat_lit 1116) .nil)) (nat_lit 9245) (nat_lit 1255) (.node (.node .nil (nat_lit 9304) (nat_lit 1263) .nil) (nat_lit 9305) (nat_lit 1118) (.node .nil (nat_lit 9307) (nat_lit 1265) .nil))) (nat_lit 9310) (nat_lit 1267) (.node (.node (.node .nil (nat_lit 9369) (nat_lit 1269) .nil) (nat_lit 9431) (nat_lit 1273) (.node .nil (nat_lit 9493) (nat_lit 1261) .nil)) (nat_lit 9555) (nat_lit 1111) (.node (.node .nil (nat_lit 9622) (nat_lit 1142) .nil) (nat_lit 9684) (nat_lit 1143) .nil))) (nat_lit 9741) (nat_lit 1242) (.node (.node (.node (.node .nil (nat_lit 9803) (nat_lit 1243) .nil) (nat_lit 9865) (nat_lit 1258) (.node .nil (nat_lit 9927) (nat_lit 1259) .nil)) (nat_lit 10012) (nat_lit 1570) (.node (.node .nil (nat_lit 10013) (nat_lit 1571) .nil) (nat_lit 10014) (nat_lit 1573) .nil)) (nat_lit 10075) (nat_lit 1572) (.node (.node (.node .nil (nat_lit 10137) (nat_lit 1574) .nil) (nat_lit 10199) (nat_lit 1730) (.node .nil (nat_lit 10261) (nat_lit 1747) .nil)) (nat_lit 10323) (nat_lit 1728) (.node (.node .nil (nat_lit 10387) (nat_lit 2345) .nil) (nat_lit 10449) (nat_lit 2353) .nil))))) (nat_lit 10511) (nat_lit 2356) (.node (.node (.node (.node (.node (.node .nil (nat_lit 10574) (nat_lit 2507) .nil) (nat_lit 10575) (nat_lit 2508) (.node .nil (nat_lit 10638) (nat_lit 2891) .nil)) (nat_lit 10639) (nat_lit 2888) (.node (.node .nil (nat_lit 10640) (nat_lit 2892) .nil) (nat_lit 10704) (nat_lit 2964) (.node .nil (nat_lit 10765) (nat_lit 3018) .nil))) (nat_lit 10766) (nat_lit 3020) (.node (.node (.node .nil (nat_lit 10827) (nat_lit 3019) .nil) (nat_lit 10891) (nat_lit 3144) (.node .nil (nat_lit 10955) (nat_lit 3264) .nil)) (nat_lit 11016) (nat_lit 3274) (.node (.node .nil (nat_lit 11017) (nat_lit 3271) .nil) (nat_lit 11018) (nat_lit 3272) .nil))) (nat_lit 11079) (nat_lit 3275) (.node (.node (.node (.node .nil (nat_lit 11143) (nat_lit 3402) .nil) (nat_lit 11144) (nat_lit 3404) (.node .nil (nat_lit 11205) (nat_lit 3403) .nil)) (nat_lit 11269) (nat_lit 3546) (.node (.node .nil (nat_lit 11270) (nat_lit 3548) .nil) (nat_lit 11271) (nat_lit 3550) .nil)) (nat_lit 11331) (nat_lit 3549) (.node (.node (.node .nil (nat_lit 11396) (nat_lit 4134) .nil) (nat_lit 11459) (nat_lit 6918) (.node .nil (nat_lit 11521) (nat_lit 6920) .nil)) (nat_lit 11583) (nat_lit 6922) (.node (.node .nil (nat_lit 11645) (nat_lit 6924) .nil) (nat_lit 11707) (nat_lit 6926) .nil)))) (nat_lit 11769) (nat_lit 6930) (.node (.node (.node (.node (.node .nil (nat_lit 11831) (nat_lit 6971) .nil) (nat_lit 11893) (nat_lit 6973) (.node .nil (nat_lit 11955) (nat_lit 6976) .nil)) (nat_lit 12017) (nat_lit 6977) (.node (.node .nil (nat_lit 12079) (nat_lit 6979) .nil) (nat_lit 12094) (nat_lit 7736) (.node .nil (nat_lit 12156) (nat_lit 7737) .nil))) (nat_lit 12218) (nat_lit 7772) (.node (.node (.node .nil (nat_lit 12280) (nat_lit 7773) .nil) (nat_lit 12344) (nat_lit 7784) (.node .nil (nat_lit 12406) (nat_lit 7785) .nil)) (nat_lit 12464) (nat_lit 7852) (.node (.node .nil (nat_lit 12467) (nat_lit 7862) .nil) (nat_lit 12526) (nat_lit 7853) .nil))) (nat_lit 12529) (nat_lit 7863) (.node (.node (.node (.node .nil (nat_lit 12588) (nat_lit 7878) .nil) (nat_lit 12650) (nat_lit 7879) (.node .nil (nat_lit 12712) (nat_lit 7896) .nil)) (nat_lit 12774) (nat_lit 7897) (.node (.node .nil (nat_lit 12834) (nat_lit 7938) .nil) (nat_lit 12835) (nat_lit 7940) .nil)) (nat_lit 12862) (nat_lit 7942) (.node (.node (.node .nil (nat_lit 12863) (nat_lit 8064) .nil) (nat_lit 12896) (nat_lit 7939) (.node .nil (nat_lit 12897) (nat_lit 7941) .nil)) (nat_lit 12924) (nat_lit 7943) (.node (.node .nil (nat_lit 12925) (nat_lit 8065) .nil) (nat_lit 12987) (nat_lit 8066) .nil)))))

def pairT110 : Tree :=
  .node (.node (.node (.node (.node (.node (.node .nil (nat_lit 13111) (nat_lit 8068) .nil) (nat_lit 13173) (nat_lit 8069) (.node .nil (nat_lit 13235) (nat_lit 8070) .nil)) (nat_lit 13297) (nat_lit 8071) (.node (.node .nil (nat_lit 13330) (nat_lit 7946) .nil) (nat_lit 13331) (nat_lit 7948) (.node .nil (nat_lit 13358) (nat_lit 7950) .nil))) (nat_lit 13359) (nat_lit 8072) (.node (.node (.node .nil (nat_lit 13392) (nat_lit 7947) .nil) (nat_lit 13393) (nat_lit 7949) (.node .nil (nat_lit 13420) (nat_lit 7951) .nil)) (nat_lit 13421) (nat_lit 8073) (.node (.node .nil (nat_lit 13483) (nat_lit 8074) .nil) (nat_lit 13545) (nat_lit 8075) .nil))) (nat_lit 13607) (nat_lit 8076) (.node (.node (.node (.node .nil (nat_lit 13669) (nat_lit 8077) .nil) (nat_lit 13731) (nat_lit 8078) (.node .nil (nat_lit 13793) (nat_lit 8079) .nil)) (nat_lit 13826) (nat_lit 7954) (.node (.node .nil (nat_lit 13827) (nat_lit 7956) .nil) (nat_lit 13888) (nat_lit 7955) (.node .nil (nat_lit 13889) (nat_lit 7957) .nil))) (nat_lit 13950) (nat_lit 7962) (.node (.node (.node .nil (nat_lit 13951) (nat_lit 7964) .nil) (nat_lit 14012) (nat_lit 7963) (.node .nil (nat_lit 14013) (nat_lit 7965) .nil)) (nat_lit 14074) (nat_lit 7970) (.node (.node .nil (nat_lit 14075) (nat_lit 7972) .nil) (nat_lit 14102) (nat_lit 7974) .nil)))) (nat_lit 14103) (nat_lit 8080) (.node (.node (.node (.node (.node .nil (nat_lit 14136) (nat_lit 7971) .nil) (nat_lit 14137) (nat_lit 7973) (.node .nil (nat_lit 14164) (nat_lit 7975) .nil)) (nat_lit 14165) (nat_lit 8081) (.node (.node .nil (nat_lit 14227) (nat_lit 8082) .nil) (nat_lit 14289) (nat_lit 8083) (.node .nil (nat_lit 14351) (nat_lit 8084) .nil))) (nat_lit 14413) (nat_lit 8085) (.node (.node (.node .nil (nat_lit 14475) (nat_lit 8086) .nil) (nat_lit 14537) (nat_lit 8087) (.node .nil (nat_lit 14570) (nat_lit 7978) .nil)) (nat_lit 14571) (nat_lit 7980) (.node (.node .nil (nat_lit 14598) (nat_lit 7982) .nil) (nat_lit 14599) (nat_lit 8088) .nil))) (nat_lit 14632) (nat_lit 7979) (.node (.node (.node (.node .nil (nat_lit 14633) (nat_lit 7981) .nil) (nat_lit 14660) (nat_lit 7983) (.node .nil (nat_lit 14661) (nat_lit 8089) .nil)) (nat_lit 14723) (nat_lit 8090) (.node (.node .nil (nat_lit 14785) (nat_lit 8091) .nil) (nat_lit 14847) (nat_lit 8092) .nil)) (nat_lit 14909) (nat_lit 8093) (.node (.node (.node .nil (nat_lit 14971) (nat_lit 8094) .nil) (nat_lit 15033) (nat_lit 8095) (.node .nil (nat_lit 15066) (nat_lit 7986) .nil)) (nat_lit 15067) (nat_lit 7988) (.node (.node .nil (nat_lit 15094) (nat_lit 7990) .nil) (nat_lit 15128) (nat_lit 7987) .nil))))) (nat_lit 15129) (nat_lit 7989) (.node (.node (.node (.node (.node (.node .nil (nat_lit 15156) (nat_lit 7991) .nil) (nat_lit 15190) (nat_lit 7994) (.node .nil (nat_lit 15191) (nat_lit 7996) .nil)) (nat_lit 15218) (nat_lit 7998) (.node (.node .nil (nat_lit 15252) (nat_lit 7995) .nil) (nat_lit 15253) (nat_lit 7997) (.node .nil (nat_lit 15280) (nat_lit 7999) .nil))) (nat_lit 15314) (nat_lit 8002) (.node (.node (.node .nil (nat_lit 15315) (nat_lit 8004) .nil) (nat_lit 15376) (nat_lit 8003) (.node .nil (nat_lit 15377) (nat_lit 8005) .nil)) (nat_lit 15438) (nat_lit 8010) (.node (.node .nil (nat_lit 15439) (nat_lit 8012) .nil) (nat_lit 15500) (nat_lit 8011) .nil))) (nat_lit 15501) (nat_lit 8013) (.node (.node (.node (.node .nil (nat_lit 15562) (nat_lit 8018) .nil) (nat_lit 15563) (nat_lit 8020) (.node .nil (nat_lit 15590) (nat_lit 8022) .nil)) (nat_lit 15624) (nat_lit 8019) (.node (.node .nil (nat_lit 15625) (nat_lit 8021) .nil) (nat_lit 15652) (nat_lit 8023) (.node .nil (nat_lit 15686) (nat_lit 8027) .nil))) (nat_lit 15687) (nat_lit 8029) (.node (.node (.node .nil (nat_lit 15714) (nat_lit 8031) .nil) (nat_lit 15748) (nat_lit 8034) (.node .nil (nat_lit 15749) (nat_lit 8036) .nil)) (nat_lit 15776) (nat_lit 8038) (.node (.node .nil (nat_lit 15777) (nat_lit 8096) .nil) (nat_lit 15810) (nat_lit 8035) .nil)))) (nat_lit 15811) (nat_lit 8037) (.node (.node (.node (.node (.node .nil (nat_lit 15838) (nat_lit 8039) .nil) (nat_lit 15839) (nat_lit 8097) (.node .nil (nat_lit 15901) (nat_lit 8098) .nil)) (nat_lit 15963) (nat_lit 8099) (.node (.node .nil (nat_lit 16025) (nat_lit 8100) .nil) (nat_lit 16087) (nat_lit 8101) (.node .nil (nat_lit 16149) (nat_lit 8102) .nil))) (nat_lit 16211) (nat_lit 8103) (.node (.node (.node .nil (nat_lit 16244) (nat_lit 8042) .nil) (nat_lit 16245) (nat_lit 8044) (.node .nil (nat_lit 16272) (nat_lit 8046) .nil)) (nat_lit 16273) (nat_lit 8104) (.node (.node .nil (nat_lit 16306) (nat_lit 8043) .nil) (nat_lit 16307) (nat_lit 8045) .nil))) (nat_lit 16334) (nat_lit 8047) (.node (.node (.node (.node .nil (nat_lit 16335) (nat_lit 8105) .nil) (nat_lit 16397) (nat_lit 8106) (.node .nil (nat_lit 16459) (nat_lit 8107) .nil)) (nat_lit 16521) (nat_lit 8108) (.node (.node .nil (nat_lit 16583) (nat_lit 8109) .nil) (nat_lit 16645) (nat_lit 8110) .nil)) (nat_lit 16707) (nat_lit 8111) (.node (.node (.node .nil (nat_lit 16769) (nat_lit 8114) .nil) (nat_lit 16831) (nat_lit 8130) (.node .nil (nat_lit 16893) (nat_lit 8178) .nil)) (nat_lit 16955) (nat_lit 8119) (.node (.node .nil (nat_lit 16988) (nat_lit 8141) .nil) (nat_lit 16989) (nat_lit 8142) .nil)))))

def pairT111 : Tree :=
  .node (.node (.node (.node (.node (.node (.node .nil (nat_lit 17079) (nat_lit 8135) .nil) (nat_lit 17141) (nat_lit 8183) (.node .nil (nat_lit 17174) (nat_lit 8157) .nil)) (nat_lit 17175) (nat_lit 8158) (.node (.node .nil (nat_lit 17202) (nat_lit 8159) .nil) (nat_lit 17263) (nat_lit 8602) (.node .nil (nat_lit 17325) (nat_lit 8603) .nil))) (nat_lit 17387) (nat_lit 8622) (.node (.node (.node .nil (nat_lit 17449) (nat_lit 8653) .nil) (nat_lit 17511) (nat_lit 8655) (.node .nil (nat_lit 17573) (nat_lit 8654) .nil)) (nat_lit 17635) (nat_lit 8708) (.node (.node .nil (nat_lit 17697) (nat_lit 8713) .nil) (nat_lit 17759) (nat_lit 8716) .nil))) (nat_lit 17821) (nat_lit 8740) (.node (.node (.node (.node .nil (nat_lit 17883) (nat_lit 8742) .nil) (nat_lit 17945) (nat_lit 8769) (.node .nil (nat_lit 18007) (nat_lit 8772) .nil)) (nat_lit 18069) (nat_lit 8775) (.node (.node .nil (nat_lit 18131) (nat_lit 8777) .nil) (nat_lit 18193) (nat_lit 8813) (.node .nil (nat_lit 18255) (nat_lit 8802) .nil))) (nat_lit 18317) (nat_lit 8816) (.node (.node (.node .nil (nat_lit 18379) (nat_lit 8817) .nil) (nat_lit 18441) (nat_lit 8820) (.node .nil (nat_lit 18503) (nat_lit 8821) .nil)) (nat_lit 18565) (nat_lit 8824) (.node (.node .nil (nat_lit 18627) (nat_lit 8825) .nil) (nat_lit 18689) (nat_lit 8832) .nil)))) (nat_lit 18751) (nat_lit 8833) (.node (.node (.node (.node (.node .nil (nat_lit 18813) (nat_lit 8928) .nil) (nat_lit 18875) (nat_lit 8929) (.node .nil (nat_lit 18937) (nat_lit 8836) .nil)) (nat_lit 18999) (nat_lit 8837) (.node (.node .nil (nat_lit 19061) (nat_lit 8840) .nil) (nat_lit 19123) (nat_lit 8841) (.node .nil (nat_lit 19185) (nat_lit 8930) .nil))) (nat_lit 19247) (nat_lit 8931) (.node (.node (.node .nil (nat_lit 19309) (nat_lit 8876) .nil) (nat_lit 19371) (nat_lit 8877) (.node .nil (nat_lit 19433) (nat_lit 8878) .nil)) (nat_lit 19495) (nat_lit 8879) (.node (.node .nil (nat_lit 19557) (nat_lit 8938) .nil) (nat_lit 19619) (nat_lit 8939) .nil))) (nat_lit 19681) (nat_lit 8940) (.node (.node (.node (.node .nil (nat_lit 19743) (nat_lit 8941) .nil) (nat_lit 19830) (nat_lit 12436) (.node .nil (nat_lit 19892) (nat_lit 12364) .nil)) (nat_lit 19954) (nat_lit 12366) (.node (.node .nil (nat_lit 20016) (nat_lit 12368) .nil) (nat_lit 20078) (nat_lit 12370) .nil)) (nat_lit 20140) (nat_lit 12372) (.node (.node (.node .nil (nat_lit 20202) (nat_lit 12374) .nil) (nat_lit 20264) (nat_lit 12376) (.node .nil (nat_lit 20326) (nat_lit 12378) .nil)) (nat_lit 20388) (nat_lit 12380) (.node (.node .nil (nat_lit 20450) (nat_lit 12382) .nil) (nat_lit 20512) (nat_lit 12384) .nil))))) (nat_lit 20574) (nat_lit 12386) (.node (.node (.node (.node (.node (.node .nil (nat_lit 20636) (nat_lit 12389) .nil) (nat_lit 20698) (nat_lit 12391) (.node .nil (nat_lit 20760) (nat_lit 12393) .nil)) (nat_lit 20822) (nat_lit 12400) (.node (.node .nil (nat_lit 20823) (nat_lit 12401) .nil) (nat_lit 20884) (nat_lit 12403) (.node .nil (nat_lit 20885) (nat_lit 12404) .nil))) (nat_lit 20946) (nat_lit 12406) (.node (.node (.node .nil (nat_lit 20947) (nat_lit 12407) .nil) (nat_lit 21008) (nat_lit 12409) (.node .nil (nat_lit 21009) (nat_lit 12410) .nil)) (nat_lit 21070) (nat_lit 12412) (.node (.node .nil (nat_lit 21071) (nat_lit 12413) .nil) (nat_lit 21132) (nat_lit 12446) .nil))) (nat_lit 21194) (nat_lit 12532) (.node (.node (.node (.node .nil (nat_lit 21256) (nat_lit 12460) .nil) (nat_lit 21318) (nat_lit 12462) (.node .nil (nat_lit 21380) (nat_lit 12464) .nil)) (nat_lit 21442) (nat_lit 12466) (.node (.node .nil (nat_lit 21504) (nat_lit 12468) .nil) (nat_lit 21566) (nat_lit 12470) .nil)) (nat_lit 21628) (nat_lit 12472) (.node (.node (.node .nil (nat_lit 21690) (nat_lit 12474) .nil) (nat_lit 21752) (nat_lit 12476) (.node .nil (nat_lit 21814) (nat_lit 12478) .nil)) (nat_lit 21876) (nat_lit 12480) (.node (.node .nil (nat_lit 21938) (nat_lit 12482) .nil) (nat_lit 22000) (nat_lit 12485) .nil)))) (nat_lit 22062) (nat_lit 12487) (.node (.node (.node (.node (.node .nil (nat_lit 22124) (nat_lit 12489) .nil) (nat_lit 22186) (nat_lit 12496) (.node .nil (nat_lit 22187) (nat_lit 12497) .nil)) (nat_lit 22248) (nat_lit 12499) (.node (.node .nil (nat_lit 22249) (nat_lit 12500) .nil) (nat_lit 22310) (nat_lit 12502) (.node .nil (nat_lit 22311) (nat_lit 12503) .nil))) (nat_lit 22372) (nat_lit 12505) (.node (.node (.node .nil (nat_lit 22373) (nat_lit 12506) .nil) (nat_lit 22434) (nat_lit 12508) (.node .nil (nat_lit 22435) (nat_lit 12509) .nil)) (nat_lit 22496) (nat_lit 12535) (.node (.node .nil (nat_lit 22558) (nat_lit 12536) .nil) (nat_lit 22620) (nat_lit 12537) .nil))) (nat_lit 22682) (nat_lit 12538) (.node (.node (.node (.node .nil (nat_lit 22744) (nat_lit 12542) .nil) (nat_lit 22808) (nat_lit 69786) (.node .nil (nat_lit 22870) (nat_lit 69788) .nil)) (nat_lit 22932) (nat_lit 69803) (.node (.node .nil (nat_lit 22995) (nat_lit 69934) .nil) (nat_lit 23057) (nat_lit 69935) .nil)) (nat_lit 23120) (nat_lit 70475) (.node (.node (.node .nil (nat_lit 23121) (nat_lit 70476) .nil) (nat_lit 23184) (nat_lit 70844) (.node .nil (nat_lit 23185) (nat_lit 70843) .nil)) (nat_lit 23186) (nat_lit 70846) (.node (.node .nil (nat_lit 23249) (nat_lit 71098) .nil) (nat_lit 23311) (nat_lit 71099) .nil)))))

/-- `comp_data`, by `f * TOTAL_LAST + l`. -/
def pairT : Tree :=
  .node (.node (.node pairT000 (nat_lit 1070) (nat_lit 416) pairT001) (nat_lit 2052) (nat_lit 7711) (.node pairT010 (nat_lit 3039) (nat_lit 7811) pairT011)) (nat_lit 5891) (nat_lit 7912) (.node (.node pairT100 (nat_lit 8123) (nat_lit 1027) pairT101) (nat_lit 13049) (nat_lit 8067) (.node pairT110 (nat_lit 17016) (nat_lit 8143) pairT111))

/-- `nfc_first`: `start`, `count`, `index`. -/
def nfcFirst : List (Nat × Nat × Nat) :=
  [(60, 2, 0), (65, 15, 3), (82, 8, 19), (97, 15, 28), (114, 8, 44), (168, 0, 53), (194, 0, 54), (196, 3, 55), (202, 0, 59), (207, 0, 60), (212, 2, 61), (216, 0, 64), (220, 0, 65), (226, 0, 66), (228, 3, 67), (234, 0, 71), (239, 0, 72), (244, 2, 73), (248, 0, 76), (252, 0, 77), (258, 1, 78), (274, 1, 80), (332, 1, 82), (346, 1, 84), (352, 1, 86), (360, 3, 88), (383, 0, 92), (416, 1, 93), (431, 1, 95), (439, 0, 97), (490, 1, 98), (550, 3, 100), (558, 1, 104), (658, 0, 106), (913, 0, 107), (917, 0, 108), (919, 0, 109), (921, 0, 110), (927, 0, 111), (929, 0, 112), (933, 0, 113), (937, 0, 114), (940, 0, 115), (942, 0, 116), (945, 0, 117), (949, 0, 118), (951, 0, 119), (953, 0, 120), (959, 0, 121), (961, 0, 122), (965, 0, 123), (969, 2, 124), (974, 0, 127), (978, 0, 128), (1030, 0, 129), (1040, 0, 130), (1043, 0, 131), (1045, 3, 132), (1050, 0, 136), (1054, 0, 137), (1059, 0, 138), (1063, 0, 139), (1067, 0, 140), (1069, 0, 141), (1072, 0, 142), (1075, 0, 143), (1077, 3, 144), (1082, 0, 148), (1086, 0, 149), (1091, 0, 150), (1095, 0, 151), (1099, 0, 152), (1101, 0, 153), (1110, 0, 154), (1140, 1, 155), (1240, 1, 157), (1256, 1, 159), (1575, 0, 161), (1608, 0, 162), (1610, 0, 163), (1729, 0, 164), (1746, 0, 165), (1749, 0, 166), (2344, 0, 167), (2352, 0, 168), (2355, 0, 169), (2503, 0, 170), (2887, 0, 171), (2962, 0, 172), (3014, 1, 173), (3142, 0, 175), (3263, 0, 176), (3270, 0, 177), (3274, 0, 178), (3398, 1, 179), (3545, 0, 181), (3548, 0, 182), (4133, 0, 183), (6917, 0, 184), (6919, 0, 185), (6921, 0, 186), (6923, 0, 187), (6925, 0, 188), (6929, 0, 189), (6970, 0, 190), (6972, 0, 191), (6974, 1, 192), (6978, 0, 194), (7734, 1, 195), (7770, 1, 197), (7778, 1, 199), (7840, 1, 201), (7864, 1, 203), (7884, 1, 205), (7936, 17, 207), (7960, 1, 225), (7968, 17, 227), (7992, 1, 245), (8000, 1, 247), (8008, 1, 249), (8016, 1, 251), (8025, 0, 253), (8032, 16, 254), (8052, 0, 271), (8060, 0, 272), (8118, 0, 273), (8127, 0, 274), (8134, 0, 275), (8182, 0, 276), (8190, 0, 277), (8592, 0, 278), (8594, 0, 279), (8596, 0, 280), (8656, 0, 281), (8658, 0, 282), (8660, 0, 283), (8707, 0, 284), (8712, 0, 285), (8715, 0, 286), (8739, 0, 287), (8741, 0, 288), (8764, 0, 289), (8771, 0, 290), (8773, 0, 291), (8776, 0, 292), (8781, 0, 293), (8801, 0, 294), (8804, 1, 295), (8818, 1, 297), (8822, 1, 299), (8826, 3, 301), (8834, 1, 305), (8838, 1, 307), (8849, 1, 309), (8866, 0, 311), (8872, 1, 312), (8875, 0, 314), (8882, 3, 315), (12358, 0, 319), (12363, 0, 320), (12365, 0, 321), (12367, 0, 322), (12369, 0, 323), (12371, 0, 324), (12373, 0, 325), (12375, 0, 326), (12377, 0, 327), (12379, 0, 328), (12381, 0, 329), (12383, 0, 330), (12385, 0, 331), (12388, 0, 332), (12390, 0, 333), (12392, 0, 334), (12399, 0, 335), (12402, 0, 336), (12405, 0, 337), (12408, 0, 338), (12411, 0, 339), (12445, 0, 340), (12454, 0, 341), (12459, 0, 342), (12461, 0, 343), (12463, 0, 344), (12465, 0, 345), (12467, 0, 346), (12469, 0, 347), (12471, 0, 348), (12473, 0, 349), (12475, 0, 350), (12477, 0, 351), (12479, 0, 352), (12481, 0, 353), (12484, 0, 354), (12486, 0, 355), (12488, 0, 356), (12495, 0, 357), (12498, 0, 358), (12501, 0, 359), (12504, 0, 360), (12507, 0, 361), (12527, 3, 362), (12541, 0, 366), (69785, 0, 367), (69787, 0, 368), (69797, 0, 369), (69937, 1, 370), (70471, 0, 372), (70841, 0, 373), (71096, 1, 374)]

/-- `nfc_last`: `start`, `count`, `index`. -/
def nfcLast : List (Nat × Nat × Nat) :=
  [(768, 4, 0), (774, 6, 5), (783, 0, 12), (785, 0, 13), (787, 1, 14), (795, 0, 16), (803, 5, 17), (813, 1, 23), (816, 1, 25), (824, 0, 27), (834, 0, 28), (837, 0, 29), (1619, 2, 30), (2364, 0, 33), (2494, 0, 34), (2519, 0, 35), (2878, 0, 36), (2902, 1, 37), (3006, 0, 39), (3031, 0, 40), (3158, 0, 41), (3266, 0, 42), (3285, 1, 43), (3390, 0, 45), (3415, 0, 46), (3530, 0, 47), (3535, 0, 48), (3551, 0, 49), (4142, 0, 50), (6965, 0, 51), (12441, 1, 52), (69818, 0, 54), (69927, 0, 55), (70462, 0, 56), (70487, 0, 57), (70832, 0, 58), (70842, 0, 59), (70845, 0, 60), (71087, 0, 61)]

end Verif.Normalize
