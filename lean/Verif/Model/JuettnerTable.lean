/-!
# Tables of the Maxwell–Jüttner sampling  (`/repo/src/math/maxwellJuettner.cpp:35-327`)

The decimal numbers of the two tables, multiplied by `10^21` so that they are whole; `Model/Velocity.lean` divides by
`10^21`.  Their conversion to `double` is rounding and not modelled.
-/

namespace Pico
namespace Vel

set_option maxHeartbeats 4000000 in
/-- `lnInvF`, `/repo/src/math/maxwellJuettner.cpp:36-180`, times `10^21`. -/
def tableF : List Int := [
  3028113261189336214000, 3027071073732334305000, 3026027773526156039000, 3024983358705674252000,
  3023937826984889554000, 3022891176588271556000, 3021843405329281751000, 3020794508115738797000,
  3019744485967266634000, 3018693334699208197000, 3017641052204572016000, 3016587635695088032000,
  3015533082181309776000, 3014477390819529479000, 3013420557495547936000, 3012362581105449966000,
  3011303458598878713000, 3010243186517333580000, 3009181763646249674000, 3008119187197372923000,
  3007055454521499804000, 3005990562743902750000, 3004924509173909630000, 3003857292634036114000,
  3002788908474254725000, 3001719355680854129000, 3000648630268972106000, 2999576731991148826000,
  2998503655125519529000, 2997429399666421634000, 2996353962705502472000, 2995277339443297215000,
  2994199530000347664000, 2993120530477835217000, 2992040337402567474000, 2990958949033188929000,
  2989876362981995772000, 2988792575310888822000, 2987707585049156567000, 2986621388358625229000,
  2985533982440079281000, 2984445365362788039000, 2983355533727858777000, 2982264485037745771000,
  2981172216817944864000, 2980078725335808532000, 2978984008843210685000, 2977888064324651030000,
  2976790888518913381000, 2975692479479559172000, 2974592833341854536000, 2973491948129783236000,
  2972389820849905107000, 2971286448441586625000, 2970181828061679408000, 2969075957208892724000,
  2967968832275599933000, 2966860451481935002000, 2965750810995817499000, 2964639908489009379000,
  2963527740903820096000, 2962414304820172539000, 2961299597945019624000, 2960183617061270755000,
  2959066359649807243000, 2957947822143851102000, 2956828002037547254000, 2955706895985176885000,
  2954584501187757173000, 2953460814660211931000, 2952335833265368414000, 2951209554214652364000,
  2950081974153428543000, 2948953090668825716000, 2947822899669829244000, 2946691399036428738000,
  2945558585590287937000, 2944424455781003314000, 2943289006595699586000, 2942152235293856943000,
  2941014138411835344000, 2939874712888751240000, 2938733955997462566000, 2937591863890403943000,
  2936448433824479842000, 2935303662619723308000, 2934157546896903224000, 2933010083853386796000,
  2931861270010330145000, 2930711101906631644000, 2929559576625540007000, 2928406691054723510000,
  2927252441657371751000, 2926096825262792578000, 2924939838353341592000, 2923781478255301547000,
  2922621741115138061000, 2921460623900341336000, 2920298122948058239000, 2919134235281933165000,
  2917968957511259731000, 2916802286044811510000, 2915634217678482187000, 2914464748961894003000,
  2913293876608659794000, 2912121597106724913000, 2910947907143853985000, 2909772803068770841000,
  2908596281477778600000, 2907418339173144961000, 2906238972494791906000, 2905058177761874472000,
  2903875951883352791000, 2902692291057715757000, 2901507191842126243000, 2900320650726790461000,
  2899132664073211352000, 2897943228293437645000, 2896752339956896627000, 2895559995385308838000,
  2894366190812813322000, 2893170923001124883000, 2891974188049351024000, 2890775982289901069000,
  2889576302190630663000, 2888375144068416223000, 2887172504172867971000, 2885968378755603858000,
  2884762764158861792000, 2883555656589881444000, 2882347052565732426000, 2881136948008295562000,
  2879925339228762926000, 2878712222535656728000, 2877497594136535053000, 2876281450075311774000,
  2875063786676820943000, 2873844599923041532000, 2872623886146674632000, 2871401641221379641000,
  2870177861549739085000, 2868952543061442650000, 2867725681847173025000, 2866497273976656768000,
  2865267315541965676000, 2864035802530226604000, 2862802730991182099000, 2861568096884958390000,
  2860331896301832710000, 2859094125094009620000, 2857854779315351035000, 2856613854776802519000,
  2855371347595562881000, 2854127253560217792000, 2852881568520355682000, 2851634288537852058000,
  2850385409199351461000, 2849134926562906678000, 2847882836492185543000, 2846629134633422264000,
  2845373816843268511000, 2844116878950580407000, 2842858316662027374000, 2841598125822740961000,
  2840336302002615554000, 2839072841028552396000, 2837807738507422961000, 2836540990284869057000,
  2835272591834488765000, 2834002538926763126000, 2832730827126246798000, 2831457452075073711000,
  2830182409297550272000, 2828905694487738653000, 2827627303066788222000, 2826347230686399925000,
  2825065472803526045000, 2823782024967665283000, 2822496882576258859000, 2821210041215960196000,
  2819921496214795376000, 2818631243084864124000, 2817339277197156377000, 2816045593982217543000,
  2814750188733192271000, 2813453056898449489000, 2812154193791040147000, 2810853594670671640000,
  2809551254881757387000, 2808247169700560875000, 2806941334410369748000, 2805633744179458322000,
  2804324394269614995000, 2803013279897377252000, 2801700396185725861000, 2800385738398021740000,
  2799069301561947221000, 2797751080840848559000, 2796431071354171127000, 2795109268148242343000,
  2793785666321451533000, 2792460260881505008000, 2791133046852197985000, 2789804019239056299000,
  2788473173006982719000, 2787140503101419142000, 2785806004486786946000, 2784469672054690204000,
  2783131500686589543000, 2781791485274847542000, 2780449620648572484000, 2779105901651405475000,
  2777760323073211968000, 2776412879715631110000, 2775063566300681739000, 2773712377596409873000,
  2772359308309426229000, 2771004353150072763000, 2769647506758373456000, 2768288763781067807000,
  2766928118871522457000, 2765565566608112924000, 2764201101585431974000, 2762834718338050610000,
  2761466411416351630000, 2760096175316944844000, 2758724004532232765000, 2757349893504113858000,
  2755973836691637757000, 2754595828493303422000, 2753215863309641964000, 2751833935474973902000,
  2750450039363840027000, 2749064169258609969000, 2747676319470597317000, 2746286484264893080000,
  2744894657857348097000, 2743500834488827422000, 2742105008327913929000, 2740707173548328157000,
  2739307324283253742000, 2737905454637300284000, 2736501558705558335000, 2735095630545556489000,
  2733687664185743493000, 2732277653640771131000, 2730865592871666081000, 2729451475853627240000,
  2728035296494928374000, 2726617048691977185000, 2725196726325556096000, 2723774323245006901000,
  2722349833245849116000, 2720923250132553761000, 2719494567664118456000, 2718063779572909677000,
  2716630879545971489000, 2715195861279537048000, 2713758718405862691000, 2712319444555017167000,
  2710878033300977208000, 2709434478216621756000, 2707988772820614454000, 2706540910616433759000,
  2705090885087406694000, 2703638689660375238000, 2702184317739106945000, 2700727762725688930000,
  2699269017956015926000, 2697808076748571260000, 2696344932399573402000, 2694879578164103062000,
  2693412007259300633000, 2691942212892081354000, 2690470188220285053000, 2688995926374097234000,
  2687519420457483044000, 2686040663537480278000, 2684559648638043861000, 2683076368776276865000,
  2681590816908736130000, 2680102985979682106000, 2678612868886856013000, 2677120458510173773000,
  2675625747673846089000, 2674128729184321429000, 2672629395805679042000, 2671127740279562790000,
  2669623755300685186000, 2668117433529207272000, 2666608767603057206000, 2665097750114018726000,
  2663584373613864020000, 2662068630634735200000, 2660550513662186756000, 2659030015139278724000,
  2657507127491555377000, 2655981843095368333000, 2654454154286059353000, 2652924053374173585000,
  2651391532625470671000, 2649856584268291737000, 2648319200494160253000, 2646779373459224871000,
  2645237095280490003000, 2643692358034541279000, 2642145153752421649000, 2640595474442429591000,
  2639043312061721824000, 2637488658533055919000, 2635931505730037205000, 2634371845500786513000,
  2632809669643025430000, 2631244969918466570000, 2629677738044042368000, 2628107965700841486000,
  2626535644519062629000, 2624960766101144038000, 2623383321996961115000, 2621803303713478694000,
  2620220702721562489000, 2618635510446848169000, 2617047718273066703000, 2615457317536296067000,
  2613864299536005298000, 2612268655521309491000, 2610670376693941641000, 2609069454222949336000,
  2607465879225293826000, 2605859642771145790000, 2604250735887037482000, 2602639149556862819000,
  2601024874714857660000, 2599407902248199953000, 2597788222998665297000, 2596165827762979106000,
  2594540707285014403000, 2592912852269290358000, 2591282253365011723000, 2589648901175708229000,
  2588012786255381670000, 2586373899110266272000, 2584732230196375102000, 2583087769921877275000,
  2581440508639612386000, 2579790436659435304000, 2578137544233525702000, 2576481821567448982000,
  2574823258815181592000, 2573161846073629189000, 2571497573394337266000, 2569830430771919971000,
  2568160408149524176000, 2566487495417556275000, 2564811682411042959000, 2563132958911872095000,
  2561451314647463118000, 2559766739291108983000, 2558079222458634838000, 2556388753712818929000,
  2554695322557521742000, 2552998918443355247000, 2551299530761480749000, 2549597148847723815000,
  2547891761978005931000, 2546183359372441224000, 2544471930189601050000, 2542757463534301543000,
  2541039948445674046000, 2539319373907536814000, 2537595728841977483000, 2535869002110008985000,
  2534139182512810340000, 2532406258786655151000, 2530670219610361205000, 2528931053597593070000,
  2527188749298794335000, 2525443295203204652000, 2523694679733073709000, 2521942891247395568000,
  2520187918042916753000, 2518429748346313612000, 2516668370323443149000, 2514903772070240073000,
  2513135941616603031000, 2511364866925872352000, 2509590535894033803000, 2507812936346065502000,
  2506032056042026390000, 2504247882668526604000, 2502460403845353287000, 2500669607121238425000,
  2498875479972036739000, 2497078009805216325000, 2495277183953487299000, 2493472989678181762000,
  2491665414167052894000, 2489854444534345568000, 2488040067821501555000, 2486222270992040517000,
  2484401040935984906000, 2482576364467900643000, 2480748228323957250000, 2478916619164317492000,
  2477081523571096788000, 2475242928047906243000, 2473400819019639929000, 2471555182831365993000,
  2469706005747788424000, 2467853273952659077000, 2465996973548479687000, 2464137090554903597000,
  2462273610910279853000, 2460406520468072511000, 2458535804997896701000, 2456661450184707274000,
  2454783441627811591000, 2452901764841395327000, 2451016405251206454000, 2449127348196260101000,
  2447234578927442339000, 2445338082606219654000, 2443437844304995998000, 2441533849005145029000,
  2439626081597783713000, 2437714526881108679000, 2435799169561309707000, 2433879994251672230000,
  2431956985469836852000, 2430030127640440352000, 2428099405091363572000, 2426164802054011638000,
  2424226302663136323000, 2422283890954779473000, 2420337550866872078000, 2418387266236796673000,
  2416433020802418064000, 2414474798200034300000, 2412512581962929836000, 2410546355522440454000,
  2408576102205855829000, 2406601805235187630000, 2404623447727224139000, 2402641012692436018000,
  2400654483033482389000, 2398663841545188191000, 2396669070912619048000, 2394670153711276228000,
  2392667072405136430000, 2390659809346837417000, 2388648346774972619000, 2386632666815606374000,
  2384612751478727422000, 2382588582659103782000, 2380560142134247936000, 2378527411564189453000,
  2376490372489827863000, 2374449006332351342000, 2372403294391666417000, 2370353217846057792000,
  2368298757750526118000, 2366239895036310603000, 2364176610508826215000, 2362108884847826662000,
  2360036698605156857000, 2357960032204726719000, 2355878865940187250000, 2353793179975101069000,
  2351702954340258334000, 2349608168934095964000, 2347508803520371501000, 2345404837727459668000,
  2343296251047237266000, 2341183022833486227000, 2339065132300874428000, 2336942558523775748000,
  2334815280435037277000, 2332683276824467633000, 2330546526337776925000, 2328405007475015331000,
  2326258698589899421000, 2324107577887416287000, 2321951623423519795000, 2319790813103117078000,
  2317625124679225657000, 2315454535750915088000, 2313279023762432995000, 2311098566001612564000,
  2308913139598376407000, 2306722721523330577000, 2304527288586462053000, 2302326817435369044000,
  2300121284553910517000, 2297910666260743362000, 2295694938707419031000, 2293474077877455386000,
  2291248059584263252000, 2289016859469788390000, 2286780453002789315000, 2284538815477031637000,
  2282291922010251994000, 2280039747541927397000, 2277782266831583691000, 2275519454457507251000,
  2273251284814709283000, 2270977732113204084000, 2268698770376391671000, 2266414373438985663000,
  2264124514945681899000, 2261829168348788333000, 2259528306906793294000, 2257221903682209874000,
  2254909931539875068000, 2252592363145054843000, 2250269170961193499000, 2247940327248446390000,
  2245605804061153510000, 2243265573246389533000, 2240919606441381440000, 2238567875071938662000,
  2236210350349980391000, 2233847003271789866000, 2231477804615432881000, 2229102724939111990000,
  2226721734578658296000, 2224334803645326541000, 2221941902023694571000, 2219542999369362501000,
  2217138065106579958000, 2214727068426054046000, 2212309978282390066000, 2209886763392083342000,
  2207457392230697035000, 2205021833030698541000, 2202580053778893543000, 2200132022214010163000,
  2197677705824045091000, 2195217071843857504000, 2192750087252414382000, 2190276718770312492000,
  2187796932857083210000, 2185310695708424511000, 2182817973253639909000, 2180318731152714573000,
  2177812934793672994000, 2175300549289609364000, 2172781539476034585000, 2170255869907644186000,
  2167723504855801675000, 2165184408305282471000, 2162638543951286962000, 2160085875196527283000,
  2157526365148061398000, 2154959976614116091000, 2152386672101062715000, 2149806413810088301000,
  2147219163634004779000, 2144624883153926298000, 2142023533636032706000, 2139415076028050144000,
  2136799470955930147000, 2134176678720404841000, 2131546659293431567000, 2128909372314629067000,
  2126264777087764291000, 2123612832576956322000, 2120953497403178734000, 2118286729840338722000,
  2115612487811585396000, 2112930728885486609000, 2110241410272010398000, 2107544488818754225000,
  2104839921006786074000, 2102127662946750242000, 2099407670374596080000, 2096679898647592299000,
  2093944302739995766000, 2091200837238794019000, 2088449456339469545000, 2085690113841469628000,
  2082922763143882694000, 2080147357240880179000, 2077363848717170391000, 2074572189743352446000,
  2071772332071244005000, 2068964227029113978000, 2066147825516855718000, 2063323078001130018000,
  2060489934510390864000, 2057648344629890325000, 2054798257496523561000, 2051939621793771984000,
  2049072385746379066000, 2046196497115118529000, 2043311903191355583000, 2040418550791640140000,
  2037516386252159695000, 2034605355423152684000, 2031685403663211709000, 2028756475833488615000,
  2025818516291934213000, 2022871468887311508000, 2019915276953162753000, 2016949883301822677000,
  2013975230218087109000, 2010991259453104973000, 2007997912217875047000, 2004995129176902591000,
  2001982850441623718000, 1998961015563778254000, 1995929563528624051000, 1992888432748232796000,
  1989837561054456971000, 1986776885691970529000, 1983706343311098630000, 1980625869960619401000,
  1977535401080458666000, 1974434871494165078000, 1971324215401476510000, 1968203366370548713000,
  1965072257330279015000, 1961930820562358013000, 1958778987693311269000, 1955616689686361820000,
  1952443856833217639000, 1949260418745664580000, 1946066304347138454000, 1942861441864086824000,
  1939645758817238219000, 1936419182012731222000, 1933181637533145425000, 1929933050728310340000,
  1926673346206103199000, 1923402447822974537000, 1920120278674454450000, 1916826761085404396000,
  1913521816600212144000, 1910205365972802882000, 1906877329156460910000, 1903537625293552082000,
  1900186172705079723000, 1896822888880065117000, 1893447690464737931000, 1890060493251651819000,
  1886661212168522672000, 1883249761266976074000, 1879826053711074696000, 1876390001765686044000,
  1872941516784688565000, 1869480509198935936000, 1866006888504112782000, 1862520563248323491000,
  1859021441019548915000, 1855509428432867036000, 1851984431117487118000, 1848446353703593781000,
  1844895099808936845000, 1841330572025270618000, 1837752671904536061000, 1834161299944834456000,
  1830556355576170802000, 1826937737146010710000, 1823305341904525756000, 1819659065989680524000,
  1815998804412052525000, 1812324451039377227000, 1808635898580905010000, 1804933038571444825000,
  1801215761355188238000, 1797483956069260147000, 1793737510626989495000, 1789976311700933076000,
  1786200244705582918000, 1782409193779852963000, 1778603041769189819000, 1774781670207480122000,
  1770944959298595300000, 1767092787897660999000, 1763225033492008320000, 1759341572181807090000,
  1755442278660384936000, 1751527026194209302000, 1747595686602526843000, 1743648130236697957000,
  1739684225959130748000, 1735703841121919000000, 1731706841545051834000, 1727693091494336919000,
  1723662453658859839000, 1719614789128142363000, 1715549957368860401000, 1711467816201181602000,
  1707368221774694383000, 1703251028543929291000, 1699116089243453587000, 1694963254862551727000,
  1690792374619444205000, 1686603295935078739000, 1682395864406460051000, 1678169923779530448000,
  1673925315921539703000, 1669661880792991049000, 1665379456419029180000, 1661077878860387935000,
  1656756982183783089000, 1652416598431809991000, 1648056557592287863000, 1643676687567082295000,
  1639276814140357530000, 1634856760946272747000, 1630416349436097923000, 1625955398844746824000,
  1621473726156702044000, 1616971146071332965000, 1612447470967592000000, 1607902510868064239000,
  1603336073402373163000, 1598747963769924896000, 1594137984701968103000, 1589505936422963783000,
  1584851616611246961000, 1580174820358985821000, 1575475340131367474000, 1570752965725072725000,
  1566007484225963253000, 1561238679965980536000, 1556446334479266724000, 1551630226457446637000,
  1546790131704089966000, 1541925823088317049000, 1537037070497540237000, 1532123640789306629000,
  1527185297742251313000, 1522221802006102687000, 1517232911050763189000, 1512218379114408595000,
  1507177957150604541000, 1502111392774418741000, 1497018430207492923000, 1491898810222073379000,
  1486752270083952387000, 1481578543494325384000, 1476377360530513050000, 1471148447585529651000,
  1465891527306504516000, 1460606318531867620000, 1455292536227339673000, 1449949891420651227000,
  1444578091134982145000, 1439176838321101659000, 1433745831788158176000, 1428284766133101957000,
  1422793331668710026000, 1417271214350181552000, 1411718095700257525000, 1406133652732862727000,
  1400517557875193386000, 1394869478888252967000, 1389189078785785014000, 1383476015751558874000,
  1377729943054986528000, 1371950508965018134000, 1366137356662287861000, 1360290124149454716000,
  1354408444159718172000, 1348491944063437087000, 1342540245772842367000, 1336552965644766111000,
  1330529714381354589000, 1324470096928725082000, 1318373712373507534000, 1312240153837215484000,
  1306069008368417661000, 1299859856832624949000, 1293612273799870760000, 1287325827429903979000,
  1281000079354956078000, 1274634584560003780000, 1268228891260492430000, 1261782540777428796000,
  1255295067409807119000, 1248765998304282920000, 1242194853322038606000, 1235581144902765605000,
  1228924377925692424000, 1222224049567603776000, 1215479649157727993000, 1208690658029483833000,
  1201856549368946370000, 1194976788059981532000, 1188050830525968715000, 1181078124568002430000,
  1174058109199509481000, 1166990214477174659000, 1159873861328088340000, 1152708461373012083000,
  1145493416745687165000, 1138228119908041958000, 1130911953461235075000, 1123544289952409958000,
  1116124491677038755000, 1108651910476764924000, 1101125887532611536000, 1093545753153434275000,
  1085910826559507436000, 1078220415661100162000, 1070473816831928549000, 1062670314677327976000,
  1054809181797020434000, 1046889678542338942000, 1038911052767741428000, 1030872539576482394000,
  1022773361060272501000, 1014612726032773971000, 1006389829756761278000, 998103853664774831600,
  989753965073103314500, 981339316888895085700, 972859047310225988300, 964312279518930837200,
  955698121365993857900, 947015665049301902400, 938263986783540837600, 929442146462033491600,
  920549187310276684200, 911584135530967953900, 902545999940274845700, 893433771595092851600,
  884246423411066850800, 874982909771092387500, 865642166124039991200, 856223108573430313800,
  846724633455767428100, 837145616908247403000, 827484914425529738400, 817741360405278006100,
  807913767682120198500, 798000927049735464500, 788001606770695750500, 777914552073725174000,
  767738484638010865200, 757472102064197017100, 747114077331666237600, 736663058241722734600,
  726117666846257336900, 715476498861486454000, 704738123066299015900, 693901080684804272300,
  682963884752581074100, 671925019466165562900, 660782939515285550100, 649536069397327442400,
  638182802713510688400, 626721501446234619000, 615150495217032133900, 603468080524566907700,
  591672519962053167200, 579762041413522166700, 567734837228277555700, 555589063372894376200,
  543322838560095999800, 530934243353807344700, 518421319249677825500, 505782067730329743000,
  493014449294579548700, 480116382459849000400, 467085742736942699500, 453920361576383824000,
  440618025285435976900, 427176473914924859100, 413593400114954490300, 399866447958576287600,
  385993211732439556200, 371971234693430796700, 357798007790279537500, 343470968349043337400,
  328987498721427962200, 314344924894780108900, 299540515062619860900, 284571478154509116500,
  269434962324044013900, 254128053393701536200, 238647773255249273600, 222991078224380440100,
  207154857348221782500, 191135930664260655900, 174931047409302570200, 158536884176923992300,
  141950043021915522900, 125167049510136713100, 108184350712178703500, 90998313139175834860,
  73605220619074387960, 56001272111623263960, 38182579460313198490, 20145165079402779090,
  1884959574231336163, -16602200707155168740, -35320576192979194490, -54274526679313636610,
  -73468513996326617610, -92907104751233107740, -112594973150109939300, -132536903900721397800,
  -152737795198538528500, -173202661798247697900, -193936638172956893300, -214944981763447062800,
  -236233076319825152600, -257806435337915973400, -279670705592839796700, -301831670772160665100,
  -324295255211103583500, -347067527732251857000, -370154705592292465600, -393563158538208168700,
  -417299412975492334300, -441370156250850853600, -465782241051893419700, -490542689926306618700,
  -515658699922966978800, -541137647357427309400, -566987092704211104200, -593214785618223161600,
  -619828670087678501600, -646836889720708518900, -674247793167890852000, -702069939682774535300,
  -730312104822423591200, -758983286289866998500, -788092709920248935000, -817649835812321090800,
  -847664364606805498200, -878146243912908408500, -909105674884276626600, -940553118945232968800,
  -972499304668147379600, -1004955234802481279000, -1037932193455777918000, -1071441753426678245000,
  -1105495783689714573000, -1140106457031379916000, -1175286257836624326000, -1211047990024640253000,
  -1247404785132468108000, -1284370110544520438000, -1321957777865867323000, -1360181951436657322000,
  -1399057156984695904000, -1438598290412803626000, -1478820626717161746000, -1519739829032453526000,
  -1561371957799146948000, -1603733480048015858000, -1646841278796369101000, -1690712662550236223000,
  -1735365374906370661000, -1780817604247509900000, -1827087993524071807000, -1874195650115166645000,
  -1922160155761540201000, -1971001576562910973000, -2020740473031910955000, -2071397910196988157000,
  -2122995467746291887000, -2175555250204936009000, -2229099897138042685000, -2283652593372224260000,
  -2339237079228581706000, -2395877660760723504000, -2453599219991908331000, -2512427225146172116000,
  -2572387740869024775000, -2633507438434537828000, -2695813605936466573000, -2759334158462542153000,
  -2824097648252419823000, -2890133274841317768000, -2957470895193073268000, -3026141033828172677000,
  -3096174892954419722000, -3167604362609613755000, -3240462030828213713000, -3314781193846027207000,
  -3390595866359104260000, -3467940791855854687000, -3546851453043248448000, -3627364082390851063000,
  -3709515672818399779000, -3793343988555180957000, -3878887576201507592000, -3966185776024640397000,
  -4055278733523468127000, -4146207411298033385000, -4239013601260967157000, -4333739937229747596000,
  -4430429907939251954000, -4529127870514209953000, -4629879064442645742000, -4732729626089497543000]

set_option maxHeartbeats 4000000 in
/-- `lnInvH`, `/repo/src/math/maxwellJuettner.cpp:183-327`, times `10^21`. -/
def tableH : List Int := [
  -9402756483482924921000, -9388318921346392898000, -9374883046130019437000, -9360818128319227327000,
  -9346352500952018971000, -9332609535599788231000, -9318636378401940590000, -9304555775711108367000,
  -9290525531420621874000, -9276495588326515218000, -9262659647248140615000, -9248642923366197977000,
  -9234537986282660427000, -9220440348595868585000, -9206526581779595375000, -9192429091051817380000,
  -9178493014106759773000, -9164404479064138798000, -9150395754817472138000, -9136394001864923453000,
  -9122462891956370612000, -9108479530895117193000, -9094472838919676505000, -9080484396623118570000,
  -9066302396191021629000, -9052305266120191263000, -9038372060472962488000, -9024257614905998537000,
  -9010261730228865673000, -8996299574888430683000, -8982360935717023764000, -8968261999420034769000,
  -8954257835762128082000, -8940289487588648498000, -8926164230689391133000, -8912199784045913731000,
  -8898161019156789919000, -8884171549684843683000, -8870206113458378283000, -8856192689655291161000,
  -8842146098452111858000, -8828133587340268207000, -8814141950394821734000, -8800128482639740568000,
  -8786091791355046254000, -8772065927576454314000, -8758060948224377640000, -8744020933568334542000,
  -8729979616492244077000, -8715998025917098602000, -8701976304743247681000, -8688005470915637574000,
  -8673989982215227101000, -8659985003093263245000, -8645943134466779867000, -8631941877630428195000,
  -8617932722102422005000, -8603896655344126287000, -8589888145629942073000, -8575831329584334028000,
  -8561871862507890896000, -8547821679997451128000, -8533818689215104669000, -8519833016046151286000,
  -8505800768836330406000, -8491788588790452508000, -8477763718789315561000, -8463751871535670546000,
  -8449750573726415581000, -8435726296060591878000, -8421710291650438052000, -8407696461704228241000,
  -8393684105181973720000, -8379666566421843044000, -8365649358002741565000, -8351631625725728370000,
  -8337625365285765255000, -8323606711928743351000, -8309588119961361485000, -8295570530937240505000,
  -8281566039082182584000, -8267550775100456661000, -8253535360283727584000, -8239518589650394631000,
  -8225500054829783636000, -8211478531743365394000, -8197475804036692182000, -8183450797927536158000,
  -8169443383719595886000, -8155428558470900313000, -8141413336443854121000, -8127399047429936019000,
  -8113385870188610127000, -8099365847720060074000, -8085356566734459349000, -8071338108809586132000,
  -8057323083786892326000, -8043308533608312771000, -8029283462705111063000, -8015277322954988293000,
  -8001260912686870341000, -7987248308454050871000, -7973235083485832320000, -7959214299713621266000,
  -7945203032260913290000, -7931188194720145468000, -7917173759481055839000, -7903154847403775385000,
  -7889135491874881723000, -7875121967064339756000, -7861110899903347438000, -7847093968442999667000,
  -7833077727373989774000, -7819062115094970622000, -7805048389543351561000, -7791032607063780091000,
  -7777020408512951732000, -7762999809997588763000, -7748986096367973531000, -7734970856036877507000,
  -7720951970669967857000, -7706938603231540341000, -7692924736361460347000, -7678906461019358254000,
  -7664893161079090689000, -7650876041121127180000, -7636861215452872997000, -7622845466222778477000,
  -7608828024984916283000, -7594812640914675228000, -7580797680436783814000, -7566782149947995251000,
  -7552765744609319931000, -7538750580869197471000, -7524734998913311657000, -7510718694153761810000,
  -7496702604314066321000, -7482686172118370393000, -7468669842403806491000, -7454654512935313448000,
  -7440638616231906255000, -7426621810922931388000, -7412607158172065169000, -7398589434939852438000,
  -7384574035610326881000, -7370557463576223434000, -7356540657627733459000, -7342525153318804065000,
  -7328508954197332059000, -7314492188771704484000, -7300475443269295539000, -7286460013886568277000,
  -7272443057492030682000, -7258426815444318336000, -7244409972475176929000, -7230393545186772464000,
  -7216377394851891225000, -7202360689208528122000, -7188344086261769128000, -7174327161166150546000,
  -7160310137083985893000, -7146293051212126102000, -7132276902050797673000, -7118259888890483111000,
  -7104242846535062661000, -7090226085231720710000, -7076209195279213660000, -7062192351651393807000,
  -7048175543678467214000, -7034158119357607930000, -7020141117404175013000, -7006123850412526721000,
  -6992106579636755193000, -6978089207294207341000, -6964072209306565675000, -6950054581777039608000,
  -6936037293725791031000, -6922019986767113942000, -6908002377494772084000, -6893984966736285358000,
  -6879967314518558474000, -6865949626461007149000, -6851932031486784425000, -6837914145871644145000,
  -6823896411506032322000, -6809878490100980564000, -6795860633787632388000, -6781842802936246528000,
  -6767824770899844466000, -6753806395345270275000, -6739788309358444529000, -6725770146734140198000,
  -6711752028083568966000, -6697733741195642132000, -6683715263982263011000, -6669697011456180213000,
  -6655678448295303973000, -6641659934976074986000, -6627641256235382805000, -6613622641520617407000,
  -6599603827649048959000, -6585584973605825176000, -6571566171568333559000, -6557547183105451261000,
  -6543528196118535867000, -6529509089637392627000, -6515489894663369697000, -6501470707639946056000,
  -6487451315675093255000, -6473431951649657456000, -6459412536766182988000, -6445392946609437068000,
  -6431373347339028435000, -6417353628364098839000, -6403333843548605131000, -6389314006174331873000,
  -6375294070149028158000, -6361274032230475051000, -6347253896227756265000, -6333233728056003820000,
  -6319213446735220785000, -6305193076729772805000, -6291172602855333196000, -6277152056531630109000,
  -6263131434948522092000, -6249110669730993273000, -6235089834011095178000, -6221068901366077597000,
  -6207047871955993834000, -6193026738061672809000, -6179005530463898666000, -6164984203796887385000,
  -6150962772820938618000, -6136941223435446346000, -6122919590081422392000, -6108897823041722575000,
  -6094875982483746846000, -6080853991215137810000, -6066831914689460703000, -6052809719325111359000,
  -6038787398623465918000, -6024764964099071030000, -6010742424656190686000, -5996719754664948887000,
  -5982696958028578038000, -5968674044105862997000, -5954650997286028868000, -5940627840583593944000,
  -5926604542202445813000, -5912581112044525078000, -5898557539480430378000, -5884533835062183194000,
  -5870510003642364083000, -5856486031202377873000, -5842461916555514279000, -5828437659701839024000,
  -5814413251724160681000, -5800388708424720541000, -5786364015360013546000, -5772339155289128776000,
  -5758314155110069166000, -5744288994507930290000, -5730263684034876626000, -5716238206091529328000,
  -5702212571495541837000, -5688186769701041534000, -5674160802365624257000, -5660134668080841536000,
  -5646108355685827362000, -5632081881824617220000, -5618055220226613855000, -5604028383548823378000,
  -5590001365458268090000, -5575974167980627172000, -5561946776948706095000, -5547919199106292609000,
  -5533891426332606223000, -5519863466651733219000, -5505835303004738890000, -5491806946614043561000,
  -5477778380315056594000, -5463749609942059493000, -5449720632566440237000, -5435691440821471154000,
  -5421662039716173886000, -5407632416902895756000, -5393602573387089372000, -5379572509719777074000,
  -5365542216350482008000, -5351511692335392034000, -5337480935451307751000, -5323449941825153076000,
  -5309418707795056314000, -5295387229476762769000, -5281355504533746803000, -5267323530078401816000,
  -5253291301650716782000, -5239258814888134275000, -5225226066090911559000, -5211193053448391233000,
  -5197159771824590990000, -5183126218151476117000, -5169092385672625412000, -5155058275382643274000,
  -5141023879201224389000, -5126989194548196238000, -5112954218078122892000, -5098918945828792459000,
  -5084883371575669386000, -5070847492041045790000, -5056811303731988616000, -5042774801179291444000,
  -5028737980487945514000, -5014700836583935839000, -5000663365711495167000, -4986625562378193877000,
  -4972587422641337795000, -4958548941040521463000, -4944510113413161712000, -4930470934645069470000,
  -4916431399638748090000, -4902391502425701653000, -4888351239474742371000, -4874310604571175709000,
  -4860269592484651291000, -4846228198304002532000, -4832186416119078842000, -4818144241376513648000,
  -4804101666899612155000, -4790058688038118184000, -4776015299456037866000, -4761971494014358264000,
  -4747927267417144215000, -4733882612267035661000, -4719837522939142715000, -4705791993126767991000,
  -4691746016933713292000, -4677699588149253351000, -4663652699310194549000, -4649605345185644723000,
  -4635557518140910105000, -4621509212121083898000, -4607460419599018309000, -4593411134326189860000,
  -4579361349129068337000, -4565311056852286775000, -4551260249935657143000, -4537208921127983352000,
  -4523157063716806370000, -4509104669361667206000, -4495051730786109978000, -4480998239915424008000,
  -4466944189213031713000, -4452889570797960772000, -4438834376060603049000, -4424778597381012979000,
  -4410722225868971336000, -4396665253509551619000, -4382607671517379622000, -4368549471322706879000,
  -4354490643789567628000, -4340431180308653047000, -4326371071702013182000, -4312310308837443706000,
  -4298248882124207526000, -4284186782349916456000, -4270123999670713211000, -4256060524440004933000,
  -4241996346796963913000, -4227931456807191068000, -4213865843972508074000, -4199799498259279673000,
  -4185732409026496903000, -4171664565769908073000, -4157595957540261011000, -4143526573541322477000,
  -4129456402581863195000, -4115385433401063331000, -4101313654585375446000, -4087241054608058199000,
  -4073167621647699299000, -4059093343771843720000, -4045018208971966622000, -4030942204774508930000,
  -4016865318883647618000, -4002787538662525790000, -3988708851168091929000, -3974629243506720311000,
  -3960548702433660750000, -3946467214545992253000, -3932384766302702506000, -3918301343838640260000,
  -3904216933265594491000, -3890131520343185656000, -3876045090659561154000, -3861957629639284129000,
  -3847869122433445366000, -3833779554071717666000, -3819688909227958007000, -3805597172458903277000,
  -3791504328004591251000, -3777410359985496235000, -3763315252231650643000, -3749218988318105961000,
  -3735121551585395494000, -3721022925173522733000, -3706923091918343349000, -3692822034423430377000,
  -3678719735067865759000, -3664616175927026820000, -3650511338833094754000, -3636405205371272764000,
  -3622297756801203583000, -3608188974152441997000, -3594078838159660005000, -3579967329266379839000,
  -3565854427652642045000, -3551740113183203373000, -3537624365419402839000, -3523507163639728823000,
  -3509388486827117681000, -3495268313597620136000, -3481146622322163875000, -3467023390990199516000,
  -3452898597305658956000, -3438772218629355226000, -3424644231970350283000, -3410514614028766545000,
  -3396383341118600185000, -3382250389237801524000, -3368115734004724082000, -3353979350675957427000,
  -3339841214159893212000, -3325701298958231078000, -3311559579221938776000, -3297416028694333701000,
  -3283270620742043899000, -3269123328322449229000, -3254974123986548840000, -3240822979894216527000,
  -3226669867761286170000, -3212514758894621458000, -3198357624168206126000, -3184198434015861778000,
  -3170037158433746782000, -3155873766953881443000, -3141708228660941238000, -3127540512170100762000,
  -3113370585620815145000, -3099198416671123280000, -3085023972502690448000, -3070847219786304816000,
  -3056668124686660715000, -3042486652874943243000, -3028302769482326795000, -3014116439119186808000,
  -2999927625862666591000, -2985736293235094152000, -2971542404209721155000, -2957345921201353089000,
  -2943146806038983154000, -2928945019976269659000, -2914740523681580875000, -2900533277212366645000,
  -2886323240022723002000, -2872110370940061053000, -2857894628167629847000, -2843675969261741709000,
  -2829454351133278145000, -2815229730025366806000, -2801002061511853380000, -2786771300482580038000,
  -2772537401131430990000, -2758300316947211339000, -2744060000697740698000, -2729816404423872633000,
  -2715569479423635801000, -2701319176241026909000, -2687065444653787605000, -2672808233660158184000,
  -2658547491464986923000, -2644283165469476504000, -2630015202255621354000, -2615743547571750316000,
  -2601468146322303721000, -2587188942549503601000, -2572905879421945929000, -2558618899217506293000,
  -2544327943310193074000, -2530032952155425452000, -2515733865272170355000, -2501430621229792539000,
  -2487123157629747006000, -2472811411091746070000, -2458495317233948541000, -2444174810658960695000,
  -2429849824935295999000, -2415520292579488970000, -2401186145038158415000, -2386847312671634747000,
  -2372503724731980679000, -2358155309347800266000, -2343801993501943404000, -2329443703013275524000,
  -2315080362516850343000, -2300711895443124710000, -2286338223996969177000, -2271959269136864634000,
  -2257574950553179249000, -2243185186646586615000, -2228789894504906499000, -2214388989881381331000,
  -2199982387170757114000, -2185569999385429174000, -2171151738131902764000, -2156727513586190081000,
  -2142297234468256484000, -2127860808017024041000, -2113418139964494014000, -2098969134508561929000,
  -2084513694286517005000, -2070051720347950930000, -2055583112125752177000, -2041107767408548490000,
  -2026625582310815243000, -2012136451243868418000, -1997640266884977533000, -1983136920147360760000,
  -1968626300148024644000, -1954108294176254423000, -1939582787661000784000, -1925049664137404415000,
  -1910508805213203543000, -1895960090533721276000, -1881403397747692496000, -1866838602470123343000,
  -1852265578246936162000, -1837684196517090696000, -1823094326574594470000, -1808495835530226525000,
  -1793888588271750573000, -1779272447423927428000, -1764647273307479391000, -1750012923897452444000,
  -1735369254780609216000, -1720716119112000175000, -1706053367570993240000, -1691380848315968466000,
  -1676698406938626595000, -1662005886417345257000, -1647303127068936668000, -1632589966500902712000,
  -1617866239561131625000, -1603131778288010123000, -1588386411858628611000, -1573629966536664426000,
  -1558862265618827125000, -1544083129380501962000, -1529292375020237182000, -1514489816603383998000,
  -1499675265004333014000, -1484848527848137811000, -1470009409450440341000, -1455157710756823208000,
  -1440293229280589449000, -1425415759039740937000, -1410525090492460665000, -1395621010471538304000,
  -1380703302117652687000, -1365771744811192123000, -1350826114103020892000, -1335866181643817541000,
  -1320891715112248566000, -1305902478141627965000, -1290898230245432377000, -1275878726741366043000,
  -1260843718673973157000, -1245792952735989001000, -1230726171188135876000, -1215643111777624297000,
  -1200543507654948661000, -1185427087289522730000, -1170293574383549196000, -1155142687784439515000,
  -1139974141395854179000, -1124787644086856497000, -1109582899599844241000, -1094359606456657197000,
  -1079117457863106644000, -1063856141612011585000, -1048575339984358035000, -1033274729649019674000,
  -1017953981560683063000, -1002612760856079754000, -987250726748550966300, -971867532420923940800,
  -956462824916517684300, -941036245028602169600, -925587427187958722300, -910115999348700022200,
  -894621582872415555000, -879103792410389939200, -863562235784190557200, -847996513864365586400,
  -832406220447388434100, -816790942130831365600, -801150258186710040300, -785483740433106425400,
  -769790953103937747300, -754071452717024026700, -738324787940361049200, -722550499456630857000,
  -706748119826005716200, -690917173347226465400, -675057175916993101900, -659167634887649733800,
  -643248048923265036700, -627297907854081571200, -611316692529376259900, -595303874668777321900,
  -579258916712113380900, -563181271667744010000, -547070382959549572600, -530925684272536391200,
  -514746599397161941300, -498532542072432527400, -482282915827858260600, -465997113824325515100,
  -449674518693979619100, -433314502379202382000, -416916425970784543200, -400479639545398502500,
  -384003482002453655500, -367487280900511748000, -350930352293320757500, -334332000565634224200,
  -317691518268969075300, -301008185957422402800, -284281272023735709400, -267510032535752617600,
  -250693711073468050700, -233831538566854568700, -216922733134659206900, -199966499924403851000,
  -182962030953779553100, -165908504953694857500, -148805087213236736400, -131650929426772644900,
  -114445169543502631200, -97186931619711008910, -79875325674063579750, -62509447546235719080,
  -45088378759213579290, -27611186385612388610, -10076922918379520310, 7515373853751791157,
  25166680965638493080, 42877990389551166870, 60650309143008777900, 78484659390162747620,
  96382078536283000150, 114343619314867694900, 132370349866859610100, 150463353811483513400,
  168623730308131686300, 186852594108773861800, 205151075600310345300, 223520320836264441100,
  241961491557244584600, 260475765199490727500, 279064334890922527400, 297728409433984764200,
  316469213274619076700, 335287986456697495500, 354185984561150579700, 373164478629110174500,
  392224755068304786800, 411368115541941581400, 430595876839339974900, 449909370727490098800,
  469309943782777849700, 488798957202070893900, 508377786592334679500, 528047821738001910100,
  547810466345238555900, 567667137762309148600, 587619266675214357900, 607668296777774452600,
  627815684415362840200, 648062898201459347500, 668411418606246199300, 688862737516446554900,
  709418357765666085500, 730079792634451996100, 750848565319381267000, 771726208370464017400,
  792714263096192417500, 813814278935632184900, 835027812796928725600, 856356428361710775300,
  877801695354882061100, 899365188779349789000, 921048488115327690400, 942853176483857358100,
  964780839774313836400, 986833065735710168700, 1009011443031680555000, 1031317560259154220000,
  1053753004930747306000, 1076319362421058745000, 1099018214877129251000, 1121851140093406807000,
  1144819710351726805000, 1167925491226848189000, 1191170040358282112000, 1214554906189223793000,
  1238081626673530833000, 1261751727951857527000, 1285566722998118916000, 1309528110237661025000,
  1333637372138616994000, 1357895973778068477000, 1382305361384801090000, 1406866960860538418000,
  1431582176281727126000, 1456452388384066099000, 1481478953032097312000, 1506663199676377740000,
  1532006429800786274000, 1557509915362758957000, 1583174897229287392000, 1609002583611719883000,
  1634994148502431299000, 1661150730116619734000, 1687473429342547293000, 1713963308203631852000,
  1740621388335936937000, 1767448649484585133000, 1794446028022785189000, 1821614415497148087000,
  1848954657203021990000, 1876467550793639250000, 1904153844926801176000, 1932014237952910163000,
  1960049376648085095000, 1988259854996070608000, 2016646213022645018000, 2045208935686086527000,
  2073948451827253514000, 2102865133182698631000, 2131959293464111393000, 2161231187507307805000,
  2190681010493759295000, 2220308897247562196000, 2250114921610536278000, 2280099095897945016000,
  2310261370437167727000, 2340601633191360609000, 2371119709469981629000, 2401815361727784648000,
  2432688289453607489000, 2463738129150097489000, 2494964454405129484000, 2526366776055511743000,
  2557944542443212121000, 2589697139764099543000, 2621623892508883724000, 2653724063995622107000,
  2685996856992998172000, 2718441414433075298000, 2751056820212167686000, 2783842100078050663000,
  2816796222601529287000, 2849918100230090179000, 2883206590421129256000, 2916660496851998019000,
  2950278570703887215000, 2984059512016312254000, 3018001971108888792000, 3052104550066684130000,
  3086365804285480685000, 3120784244073000924000, 3155358336302044542000, 3190086506111383446000,
  3224967138650136622000, 3259998580861284800000, 3295179143299920455000, 3330507101981744711000,
  3365980700257427571000, 3401598150708227575000, 3437357637058491289000, 3473257316100561987000,
  3509295319627706355000, 3545469756370736469000, 3581778713934076208000, 3618220260727126991000,
  3654792447886851203000, 3691493311187746151000, 3728320872935293906000, 3765273143839341863000,
  3802348124863886181000, 3839543809049948297000, 3876858183308386607000, 3914289230179682999000,
  3951834929557909604000, 3989493260376288930000, 4027262202251907119000, 4065139737087459793000,
  4103123850627900637000, 4141212533970256793000, 4179403785024969231000, 4217695609927317513000,
  4256086024397712109000, 4294573055049793808000, 4333154740645484004000, 4371829133296307290000,
  4410594299610440139000, 4449448321785244964000, 4488389298644973380000, 4527415346623724801000,
  4566524600693744773000, 4605715215239329474000, 4644985364876748513000, 4684333245220703823000,
  4723757073597968592000, 4763255089708972712000, 4802825556238135896000, 4842466759414006283000,
  4882177009520106914000, 4921954641357675797000, 4961798014661471079000, 5001705514469860780000,
  5041675551450504500000, 5081706562182967346000, 5121797009399650769000, 5161945382186415188000,
  5202150196144439853000, 5242409993514641542000, 5282723343266237492000, 5323088841150888761000,
  5363505109723930353000, 5403970798334178482000, 5444484583083772478000, 5485045166759582536000,
  5525651278737584882000, 5566301674861654725000, 5606995137298286913000, 5647730474368503728000,
  5688506520358434848000, 5729322135309868003000, 5770176204792100805000, 5811067639656364747000,
  5851995375774075470000, 5892958373760132318000, 5933955618682425381000, 5974986119758676217000,
  6016048910041793540000, 6057143046094681793000, 6098267607655615485000, 6139421697295129654000,
  6180604440065376792000, 6221814983142841982000, 6263052495465290193000, 6304316167363771761000,
  6345605210190464085000, 6386918855943076956000, 6428256356886620004000, 6469616985173070489000,
  6511000032459687503000, 6552404809526525931000, 6593830645893738129000, 6635276889439174042000,
  6676742906016807311000, 6718228079076448367000, 6759731809285145054000, 6801253514150790380000,
  6842792627648170978000, 6884348599847924355000, 6925920896548682926000, 6967508998912713913000,
  7009112403105341116000, 7050730619938390120000, 7092363174517901214000, 7134009605896315165000,
  7175669466729295287000, 7217342322937444266000, 7259027753372938818000, 7300725349491324678000,
  7342434715028535841000, 7384155465683258868000, 7425887228804723961000, 7467629643086000080000,
  7509382358262848278000, 7551145034818199875000, 7592917343692232812000, 7634698965998204301000,
  7676489592743889645000, 7718288924558750708000, 7760096671426786941000, 7801912552425056546000,
  7843736295467861552000, 7885567637056555945000, 7927406322034950215000, 7969252103350283001000,
  8011104741819659480000, 8052964005902026656000, 8094829671475483934000, 8136701521619965405000,
  8178579346405202344000, 8220462942683900209000, 8262352113890059968000, 8304246669842363815000,
  8346146426552573772000, 8388051206038806384000, 8429960836143713721000, 8471875150357364603000,
  8513793987644810102000, 8555717192278262218000, 8597644613673752545000, 8639576106232228270000,
  8681511529184973597000, 8723450746443274895000, 8765393626452272713000, 8807340042048823037000,
  8849289870323442386000, 8891242992486070307000, 8933199293735690105000, 8975158663133653292000,
  9017120993480681079000, 9059086181197388399000, 9101054126208316220000, 9143024731829335394000,
  9184997904658382950000, 9226973554469383387000, 9268951594109404724000, 9310931939398793489000,
  9352914509034373935000, 9394899224495514289000, 9436886009953081356000, 9478874792181123610000,
  9520865500471277443000, 9562858066549781100000, 9604852424497055452000, 9646848510669737919000,
  9688846263625196187000, 9730845624048324538000, 9772846534680663666000, 9814848940251730269000,
  9856852787412515582000, 9898858024671071121000, 9940864602330142574000, 9982872472426784327000,
  10024881588673869360000, 10066891906403533600000, 10108903382512362870000, 10150915975408382860000,
  10192929644959734860000, 10234944352445035420000, 10276960060505313520000, 10318976733097541040000,
  10360994335449651870000, 10403012834017051350000, 10445032196440505960000, 10487052391505493180000,
  10529073389102808990000, 10571095160190521870000, 10613117676757157780000, 10655140911786126880000,
  10697164839221311890000, 10739189433933812980000, 10781214671689793860000, 10823240529119413370000,
  10865266983686758810000, 10907294013660855820000, 10949321598087589540000, 10991349716762593760000,
  11033378350205063970000, 11075407479632431770000, 11117437086935922250000, 11159467154656919520000,
  11201497665964144090000, 11243528604631610080000, 11285559955017303580000, 11327591702042653310000,
  11369623831172637200000, 11411656328396592390000, 11453689180209700280000, 11495722373595082640000,
  11537755896006531840000, 11579789735351818440000, 11621823879976597380000, 11663858318648829380000,
  11705893040543806190000, 11747928035229628920000, 11789963292653224510000, 11831998803126845490000,
  11874034557315026110000, 11916070546222005790000, 11958106761179584150000, 12000143193835402400000]

end Vel
end Pico
