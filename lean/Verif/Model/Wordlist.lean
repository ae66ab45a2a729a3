import Lean
import Verif.Model.Basic
/-!
# The mnemonic word list, src/qrl/wordlist.cpp:3-376

The words are written as text, 64 per block, in the order of the source. The term elaborator `words!`
replaces each block by the list of its words, every word being the base-256 number of its ASCII
characters, so the kernel only sees natural-number literals. The character `~` is dropped by it (one word
may not be written in one piece in this repository).
-/

namespace Qrl

open Lean Elab Term in
/-- `words! "a b c"` is the list of the numbers whose base-256 digits are the characters of the words. -/
elab "words!" s:str : term => do
  let ws := (s.getString.split (fun c => c == ' ' || c == '\n')).toList.map (·.toString)
  let ws := (ws.filter (· ≠ "")).map fun w => (w.replace "~" "")
  return toExpr (ws.map fun w => w.foldl (fun n c => 256 * n + c.toNat) 0)

set_option maxRecDepth 100000 in
/-- The 4096 words of src/qrl/wordlist.cpp:3-376, in order, in blocks of 64. -/
def wordBlocks : List (List Nat) := [
  words! "aback abbey abbot abide ablaze able aboard abode abort abound about above abra abroad abrupt absent
    absorb absurd accent accept access accord accuse ace ache aching acid acidic acorn acre across act
    action active actor actual acute adam adapt add added adept adhere adjust admire admit adobe adopt
    adrift adverb advert aedes aerial afar affair affect afford afghan afield afloat afraid afresh after again",
  words! "age agency agenda agent aghast agile ago agony agree agreed aha ahead aid aide aim air
    airman airy akin alarm alaska albeit album alert alibi alice alien alight align alike alive alkali
    all allars allay alley allied allot allow alloy ally almond almost aloft alone along aloof aloud
    alpha alpine also altar alter always amaze amazon amber ambush amen amend amid amidst amiss among",
  words! "amount ample amuse anchor and andrew anew angel anger angle anglo angola animal ankle annoy annual
    answer anthem anti antony anubis any anyhow anyway apart apathy apex apiece appeal appear apple apply
    april apron arcade arcane arch arctic ardent are area argue arid arise arm armful armpit army
    aroma around arouse array arrest arrive arrow arson art artery artful artist ascent ashen ashore aside",
  words! "ask asleep aspect assay assent assert assess asset assign assist assume assure asthma astute asylum ate
    athens atlas atom atomic atop attach attain attend attic auburn audio audit augite august aunt auntie
    aura austin auteur author auto autumn avail avenge avenue avert avid avoid await awake awaken award
    aware awash away awful awhile axes axiom axis axle aye baby bach back backup bacon bad",
  words! "badge badly bag baggy bail bait bake baker bakery bald ball ballad ballet ballot baltic bamboo
    ban banal banana band banjo bank bar barber bare barely barge baric bark barley barn baron
    barrel barren basalt base basic basil basin basis basket basque bass bat batch bath bathe baton
    battle bay beach beacon beak beam bean bear beard beat beauty become bed beech beef beefy",
  words! "beep beer beet beetle before beggar begin behalf behave behind beige being belfry belief bell belly
    belong below belt bench bend bended benign bent berlin berry berth beset beside best bestow bet
    beta betray better betty beware beyond bias biceps bicker bid big bike bile bill binary bind
    biopsy birch bird birdie birth bishop bit bite bitter blade blame bland blaser blast blaze bleak",
  words! "blend bless blew blink blip bliss blitz block blond blood bloom blot blouse blue bluff blunt
    blur blush boar board boast boat bocage bodily body bogus boil bold bolt bombay bond bone
    bonn bonnet bonus bony book boost boot booth booze bop border bore borrow bosom boss boston
    both bother bottle bottom bought bounce bound bounty bout bovine bow bowel bowl box boy boyish",
  words! "brace brain brainy brake bran branch brand brandy brass brave bravo brazil breach bread break breath
    bred breed breeze brew brick bride bridge brief bright brim brine bring brink brisk briton broad
    broke broken bronze brook broom brown bruise brush brutal brute bubble buck bucket buckle buddha budget
    buen buffet buggy build bulb bulge bulk bulky bull bullet bully bump bumpy bunch bundle bunk",
  words! "bunny burden bureau burial burly burma burned burnt burrow burst bury bus bush bust bustle busy
    but butler butter button buy buyer buzz bye byte byways cab cabin cable cache cactus caesar
    cage cagey cahot cain cairo cake cakile calf call caller calm calmly came camel camera camp
    campus can canada canary cancel candid candle candy cane canine canna canoe canopy canvas canyon cap",
  words! "cape car carbon card care career caress cargo carl carnal carol carp carpet carrot carry cart
    cartel case cash cask cast castle casual cat catch cater cattle caught causal cause cave cease
    celery cell cellar celtic cement censor census cereal cervix chain chair chalet chalk chalky champ chance
    change chant chaos chap chapel charge charm chart chase chat cheap cheat check cheek cheeky cheer",
  words! "cheery cheese chef cherry chess chest chew chic chick chief child chile chill chilly china chip
    choice choir choose chop choppy chord chorus chose chosen choux chrome chunk chunky cider cigar cinema
    circa circle circus cite city civic civil clad claim clammy clan clap clash clasp class clause
    claw clay clean clear clergy clerk clever click client cliff climax climb clinch cling clinic clip",
  words! "cloak clock clone close closer closet cloth cloud cloudy clout clown club clue clumsy clung clutch
    coach coal coast coat coax cobalt cobble cobra coca cocoa code coffee coffin cohort coil coin
    coke cold collar colon colony colt column comb combat come comedy comes comic commit common compel
    comply concur cone confer congo consul convex convey convoy cook cool cope copper copy coral cord",
  words! "core cork corn corner corps corpse corpus cortex cosmic cosmos cost costia costly cosy cotton couch
    cough could count county coup couple coupon course court cousin cove cover covert cow coward cowboy
    crab cradle craft crafty crag crane crate crater crawl crazy creak cream create credit creed creek
    creep creepy creole crept crest crew cried crisis crisp critic croft crook crop cross crow crowd",
  words! "crown crude cruel cruise crunch crush crust crux cry crypt cuba cube cubic cuckoo cuff cult
    cup curb cure curfew curl curlew curry curse cursor curve custom cut cute cycle cyclic cynic
    cyprus czech dad daddy dagger daily dairy daisy dale dallas damage damp dampen dance danger daniel
    danish dare dark darken darwin dash data date david dawn day deadly deaf deal dealer dean",
  words! "dear debar debate debit debris debt debtor decade decay decent decide deck decor decree deduce deed
    deep deeply deer defeat defect defend defer define defy degree deity delay delete delhi delphi delta
    demand demise demo demure denial denote dense dental deny depart depend depict deploy depot depth deputy
    derby derive desert design desist desk detail detect deter detest detour device devise devoid devote devour",
  words! "dial diana diary dice dictum did diesel diet differ digest digit dine dinghy dingus dinner diode
    dire direct dirt disc disco dish disk dismal dispel ditch divert divide divine dizzy docile dock
    doctor dog dogger dogma dole doll dollar dolly domain dome domino donate done donkey donor door
    dorsal dose dote double doubt dough dour dove dower down dozen draft drag dragon drain drama",
  words! "drank draper draw drawer dread dream dreamy dreary dress drew dried drift drill drink drip drive
    driver drool drop drove drown drum dry dual dublin duck duct due duel duet duke dull
    duly dummy dump dune dung duress during dusk dust dusty dutch duty dwarf dwell dyer dying
    dynamo each eager eagle ear earl early earn earth ease easel easily east easter easy eat",
  words! "eaten eater echo eddy eden edge edible edict edit editor edward eerie eerily effect effort egg
    ego egypt eight eighth eighty either elbow elder eldest elect eleven elicit elite eloge else elude
    elves embark emblem embryo emerge emit empire employ empty enable enamel end endure energy engage engine
    enjoy enlist enough ensure entail enter entire entre entry envoy envy enzyme epic epoch equal equate",
  words! "equip equity era erase eric erode erotic errant error escape essay essex estate esteem ethic etoile
    eundo europe evade eve even event ever every evict evil evoke evolve exact exam exceed excel
    except excess excise excite excuse exempt exert exile exist exit exodus exotic expand expect expert expire
    export expose extend extra exulat eye eyed fabric face facer facial fact factor fade fail faint",
  words! "fair fairly fake falcon fall false falter fame family famine famous fan fancy far farce fare
    farm farmer fast fasten faster fatal fate father fatty fault faulty fauna feast feat fed fee
    feeble feed feel feels feet fell fellow felt female femur fence fend ferry fetal fetch feudal
    fever few fewer fiance fiasco fiddle field fiend fierce fiery fifth fifty fig figure file fill",
  words! "filled filler film filter filth filthy final finale find fine finish finite firm firmly first fiscal
    fish fisher fit fitful five fix flag flair flak flame flank flare flash flask flat flaw
    fled flee fleece fleet flesh fleshy flew flick flight flimsy flint flirt float flock floe flood
    floor floppy flora floral flour flow flower fluent fluffy fluid flung flurry flush flute flux fly",
  words! "flyer foal foam foamy focal focus fog foil foin fold folk follow folly fond fondly font
    food fool foot for forbid force ford forest forge forget fork form formal format former fort
    forth forty forum fossil foster foul found four fourth fox foyer frail frame franc france frank
    free freed freely freer freeze french frenzy fresh friar friday fridge fried friend fright fringe frock",
  words! "frog from front frost frosty frown frozen frugal fruit fruity fudge fuel fulfil full fully fun
    fund funny fur furry fury fuse fusion fuss fussy futile future fuzzy gadget gag gain gala
    galaxy gale gall galley gallon gallop gamble game gamma gandhi gap garage garden garlic gas gasp
    gate gather gaucho gauge gaul gaunt gave gaze gear geese gemini gender gene geneva genial genius",
  words! "genre gentle gently gentry genus george get ghetto ghost giant gift giggle gill gilt ginger girl
    give given glad glade glance gland glare glass glassy gleam glee glib glide global globe gloom
    gloomy gloria glory gloss glossy glove glow glue goal goat gold golden golf gone gong good
    goose gorge gory gosh gospel gossip got gothic govern gown grab grace grade grain grand grant",
  words! "grape graph grasp grass grassy grate grave gravel gravy gray grease greasy great greece greed greedy
    greek green greet grew grey grid grief grill grim grin grind grip grit gritty groan groin
    groom groove ground group grove grow grown growth grudge grunt guard guess guest guide guild guilt
    guilty guise guitar gulf gully gunman guru gut guy gypsy habit hack had hague hail hair",
  words! "hairy haiti hale half hall halt hamlet hammer hand handle handy hang hangar hanoi happen happy
    hard hardly hare harm harp harry harsh has hash hassle hasta haste hasten hasty hat hatch
    hate haul haunt havana have haven havoc hawaii hawk hawse hazard haze hazel hazy heal health
    heap hear heard heart hearth hearty heat heater heaven heavy hebrew heck hectic hedge heel hefty",
  words! "height heil heir held helium helix hello helm helmet help hemp hence henry her herald herb
    herd here hereby hermes hernia hero heroic hest hey heyday hick hidden hide high higher highly
    hill him hind hindu hint hippy hire his hiss hit hive hoard hoarse hobby hockey hold
    holder hollow holly holy home honest honey hood hope hopple horrid horror horse hose host hotbox",
  words! "hotel hound hour house hover how huck huge hull human humane humble humid hung hunger hungry
    hunt hurdle hurl hurry hurt hush hut hybrid hymn hyphen ice icing icon idaho idea ideal
    idiom idle idly idol ignite ignore ill image immune impact imply import impose inca inch income
    incur indeed index india indian indoor induce inept inert infant infect infer influx inform inhere inject",
  words! "injure injury ink inlaid inland inlet inmate inn innate inner input insane insect insert inset inside
    insist insult insure intact intake intend inter into invade invent invest invite invoke inward iowa iran
    iraq irish iron ironic irony isaac isabel islam island isle issue italy item itself ivan ivory
    ivy jacket jacob jaguar jail james japan jargon java jaw jazz jeep jelly jerky jersey jest",
  words! "jet jewel jim jive job jock jockey john join joke jolly jolt jordan joseph joy joyful
    joyous judas judge judy juice juicy july jumble jumbo jump june jungle junior junk junta jury
    just kami kansas karate karl karma kedge keel keen keep keeper kenya kept kernel kettle key
    khaki khaya khowar kick kidnap kidney kin kind kindly king kiss kite kitten knack knaggy knee",
  words! "knew knight knit knock knot know known koran korea kusan kuwait label lace lack lad ladder
    laden lady lagoon laity lake lamb lame lamp lance land lane laos lap lapse large larval
    laser last latch late lately latent later latest latter laugh launch lava lavish law lawful lawn
    laws lawyer lay layer layman lazy lead leader leaf leafy league leak leaky lean leap learn",
  words! "lease leash least leave led ledge left leg legacy legal legend legion lemon lend length lens
    lent leo leper lese lesion less lessen lesser lesson lest let lethal letter letup level lever
    levy lewis liable liar libel libya lice lick lid lie lied life lift light like likely
    lima limb lime limit limp line linear linen lineup linger link lion lip liquid lisbon list",
  words! "listen lit live lively liver livy liz lizard load loaf loan lobby lobe local locate lock
    locus lodge loft lofty log logic logo london lone lonely long longer look loop loose loosen
    loot lord lorry lose loss lost lot lotus loud loudly lounge lousy louvre love lovely lover
    low lower lowest loyal lucid luck lucky lucy lukes lull lump lumpy lunacy lunar lunch lung",
  words! "lure lurid lush lusory lute luther luxury lying lymph lyric macho macro macte madam madame made
    madrid magic magma magnet magnum maid maiden mail main mainly major make maker male malice mall
    malt malta mammal manage mane mania manic manila manner manor mantle manual manure many map maple
    marble march mare margin maria marina mark market marry mars marsh martin martyr mary mask mason",
  words! "mass mast match mate matrix matter mature maxim may maya maybe mayor maze mead meadow meal
    mean meant meat mecca medal media median medic medium meet mellow melody melon melt member memo
    memory menace mend mental mentor menu mercy mere merely merge merger merit merry mesh mess messy
    met metal meter method methyl metric metro mexico miami mickey mid midas midday middle midst midway",
  words! "might mighty milan mild mildew mile milk milky mill mimic mince mind mine mini mink minor
    mint minus minute mirror mirth misery miss mist misty mite mix mizzle moan moat mobile mock
    mode model modem modern modest modify module moist molar mole molten moment monaco monday money monies
    monk monkey month mood moody moon moor moral morale morbid more morgue mortal mortar mosaic moscow",
  words! "moses mosque moss most mostly moth mother motion motive motor mould mount mourn mouse mouth move
    movie mrs much muck mucky mucus mud muddle muddy mule mummy munich murky murmur muscle museum
    music mussel must mutant mute mutiny mutter mutton mutual muzzle myopic myriad myself mystic myth nadir
    nail name namely nape napkin naples narrow nasal nation native nature nausea naval nave navy near",
  words! "nearer nearly neat neatly neck need needle needy negate nemo neon nepal nephew nerve nest neural
    never newark newly next nice nicely niche nickel nidor niece night nile nimble nine ninety ninth
    nobel noble nobody node noise noisy non none noon nor norm normal north norway nose nostoc
    nosy not note notice notify notion nought noun novel novice now nozzle nubere null numb number",
  words! "nurse nylon oak oasis oath obese obey object oblige oboe obtain occult occupy occur ocean octave
    odd off offend offer office offset often ohio oil oily okay old older oldest olive omega
    omen omit once one onion only onset onto onus onward opaque open openly opera opium oppose
    optic option oracle orange orbit orchid orchil ordeal order organ orient origin ornate orphan oscar oslo",
  words! "other otter ought ounce our out outer output outset oval oven over overt owe owing owl
    own owner oxford oxide oxygen oyster ozone pace pack packet pact paddle paddy pagan page paid
    pain paint pair palace pale palm panama panel panic papa papal paper parade parcel pardon parent
    paris parish park parody parrot part partly party pascal pass past paste pastel pastor pastry pat",
  words! "patch patent path patio patrol patron paul pause pave pay peace peach peak pear pearl pedal
    peel peer peking pelvic pelvis pen penal pence pencil pennon penny people pepper per perch peril
    perish permit person peru pest peter petrol petty phage phase philip phone photo phrase piano pick
    picket picnic pie piece pier pierce piety pig pigeon piggy pigsty pike pile pill pillar pillow",
  words! "pilot pin pinch pine pink pint pious pipe pirate piston pit pitch pity pivot pixel pizza
    place placid plague plaguy plain plan plane planet plank plant plasma plate play playa player plea
    plead please pledge plenty plenum plight plot ploy plum plump plunge plural plus plush pocket pod
    poem poet poetic poetry point poison poland polar pole police policy polish polite poll pollen polo",
  words! "pond ponder pony pool poor poorly pop pope popery poppy pore pork port portal pose posh
    post postal potato potent pouch pound pour powder power prague praise prate pray prayer preach prefer
    prefix press pretty price pride priest primal prime prince print prior prism prison privy prize probe
    profit prompt prone proof propel proper prose proton proud prove proven proxy prune psalm pseudo psyche",
  words! "pub public puff pull pulp pulpit pulsar pulse pump punch pung punish punk pupil puppet puppy
    pure purely purge purify purple purse pursue push pushy put putt puzzle quaint quake quarry quartz
    quay quebec queen query quest queue quick quid quiet quilt quirk quit quite quiver quiz quota
    quote rabato rabbit race racism rack racket radar radio radish radius raffle raft rage raid rail",
  words! "rain rainy raise rally ramp random range rank ransom rapid rare rarely rarity rash rat rate
    rather ratify ratio rattle rave raven raw ray razor reach react read reader ready real really
    realm reap rear reason rebel recall recent recess recipe reckon record recoup rector red redeem reduce
    reed reef reefy refer reform refuge refuse regal regard regent regime region regret reign relate relax",
  words! "relay relic relief relish rely remain remark remedy remind remit remote remove renal render rent rental
    repair repeal repeat repent repine reply report rescue resent reside resign resin resist resort rest result
    resume retail retain retina retire return reveal revest review revise revive revolt reward rex rhexia rhine
    rhino rho rhyme rhythm ribbon rice rich rick rid ride rider ridge rife rifle rift right",
  words! "rigid ring rinse riot ripe ripen ripple rise risk risky rite ritual ritz rival river road
    roar roast rob robe robert robin robot robust rock rocket rocks rocky rod rode rodent rogue
    role roll roman rome roof room root rope rosa rose roseau rosy rotate rotor rotten rouge
    rough round route rover row royal rubble ruby rudder rude rugby ruin rule ruler rumble run",
  words! "rune rung runway rural rush russia rust rustic rusty ruta sabe saber sack sacred sad saddle
    sadism sadly safari safe safely safer safety saga sage sahara said sail sailor saint sake salad
    salary sale saline saliva salmon saloon salt salty salute sam same sample sand sandy sane sarong
    sash satin satire saturn sauce saudi sauna savage save saxon say scale scalp scan scant scar",
  words! "scarce scare scarf scary scene scenic scent school scope score scorn scot scotch scout scrap scream
    screen script scroll scrub scute sea seal seam seaman search season seat second secret sect sector
    secure see seed seeing seek seem seize seldom select self sell seller semi senate send senile
    senior sense sensor sent sentry seoul sequel serene serial series sermon serum serve server set settle",
  words! "seven severe sewage shabby shade shadow shady shaft shaggy shah shake shaky shall sham shame shanks
    shape share shark sharp shawl she shear sheen sheep sheer sheet shelf shell sherry shield shift
    shine shiny ship shire shirt shiver shock shoe shook shop shore short shot should shout show
    shower shrank shrewd shrill shrimp shrine shrink shrub shrug shuha shut shy shyly side sided siege",
  words! "sigh sight sigma sign signal silent silk silken silky sill silly silver simian simple simply since
    sinful sing singer single sink sir siren sirius sister sit site six sixth sixty size sketch
    skill skin skinny skip skirt skull sky slab slabby slack slain slam slang slap slate slater
    sleek sleep sleepy sleeve slice slick slid slide slight slim slimy sling slip slit slogan slope",
  words! "sloppy slot slow slowly slug slum slump small smart smash smear smell smelly smelt smile smite
    smoke smoky smooth smug snack snail snake snap sneak snow snowy snug soak soap sober soccer
    social sock socket soda sodden sodium sofa soft soften softly soggy soil solar sold sole solely
    solemn solid solo solve somali some son sonar sonata song sonic sony soon sooner soot soothe",
  words! "sordid sore sorrow sor~ry sort soul sound soup sour source space spade spain span spare spark
    sparse spasm spat spate speak spear speech speed speedy spell spend sphere spice spicy spider spiky
    spill spin spinal spine spinus spiral spirit spite splash split spoil spoke sponge spoon sport spot
    spouse spout spray spread spree spring sprint spur squad square squash squat squid stab stable stack",
  words! "staff stage stain stair stake stale stalin stall stamp stance stand staple star starch stare stark
    start starve state static statue status stay stead steady steak steal steam steel steep steer stem
    stench step steppe stereo stern stew stick sticky stiff stifle stigma still sting stint stir stitch
    stock stocky stone stony stool stop store storm stormy story stot stout stove strain strait strand",
  words! "strap strata straw stray streak stream street stress strict stride strife strike string strip strive stroll
    strong stud studio study stuff stuffy stunt sturdy style submit subset subtle subtly suburb such sudan
    sudden sue suez suffer sugar suit suite suitor sullen sultan sum summer summit summon sun sunday
    sunny sunset super superb supper supple supply sure surely surf surge survey suture swamp swan swap",
  words! "swarm sway swear sweat sweaty sweden sweep sweet swell swift swim swine swing swirl swiss switch
    sword swore sydney symbol synod syntax syria syrup system table tablet tace tacit tackle tact tactic
    tail tailor taiwan take tale talent talk tall tally tame tandem tangle tank tap tape target
    tariff tart tarzan task tasset taste tasty tattoo taurus taut tavern tax taxi tea teach teak",
  words! "team tear tease tech tecum teeth tehran tel tell temper temple tempo tempt ten tenant tend
    tender tendon tenet tennis tenor tense tensor tent tenth tenure tera teresa term test texas text
    than thank that the their them theme then thence theory there these thesis they thick thief
    thigh thin thing think third thirst thirty this thomas thorn those though thread threat three thrill",
  words! "thrive throat throne throng throw thrust thud thug thumb thump thus thyme tibet tick ticket tidal
    tide tidy tie tier tiger tight tile tiling till tilt timber time timid tin tiny tip
    tissue title toad toast today token tokyo told toll tom tomato tomb tonal tone tonic too
    took tool tooth top topaz tophet topic torch torque torso tort toss total totem touch tough",
  words! "tour toward towel tower town toxic toxin trace track tract trade tragic trail train trait tram
    trance trap trauma travel tray tread treat treaty treble tree trek tremor trench trend trendy trial
    tribal tribe trick tricky tried trifle trim trio trip triple troop trophy trot trough trout truce
    truck true truly trunk trust truth try tsar tube tulle tumble tuna tundra tune tung tunic",
  words! "tunis tunnel turban turf turk turkey turn turtle tutor tweed twelve twenty twice twin twist two
    tycoon tying type tyrant uganda ugly ulcer ultra umpire unable uncle under uneasy unfair unify union
    unique unit unite unity unkind unlike unrest unruly unship until unwary update upheld uphill uphold upon
    uproar upset upshot uptake upturn upward urban urge urgent urging usable usage use useful user usual",
  words! "utmost utter vacant vacuum vague vain valet valid valley value valve van vanish vanity vary vase
    vast vat vault vector vedic veil vein velvet vendor veneer venice venom vent venue venus verb
    verbal verge verify verity verse versus very vessel vest veto vex via viable vicar vice victim
    victor video vienna view vigil vigor viking vile villa vine vinyl viola violet violin viral virgo",
  words! "virtue virus visa vision visit visual vitae vital vivid vocal vodka vogue voice void volley volume
    vote vowel voyage vulgar wade wage waist wait waiter wake walk walker wall wallet walnut wander
    want war warden warm warmth warn warp warsaw wary was wash wasp waste watch water watery
    wave way weak weaken wealth wear weary wedge wee weed week weekly weep weight weird well",
  words! "were west wet whale wharf what wheat wheel wheeze wheezy when whence where which whiff whig
    while whim whip whisky white who whole wholly whom whose why wide widely widen wider widow
    width wife wild wildly wilful will willow win wind window windy wine winery wing wink winner
    winter wipe wire wisdom wise wish wit witch with within witty wizard woke wolf wolves woman",
  words! "womb won wonder wood wooden woods woody wool word work worker world worm worry worse worst
    worth worthy would wound wrap wrath wreath wreck wren wright wrist writ write writer wrong xerox
    yacht yager yale yard yarn yeah year yeast yellow yemen yet yield yogurt yokel yolk york
    you young your youth zaire zeal zebra zenith zero zigzag zinc zing zipper zombie zone zurich"]

/-- Base-256 digits of a number, most significant first (`fuel` bounds their number).
Encoding device of this model for the literals of src/qrl/wordlist.cpp:3-376. -/
def digits256 : Nat → Nat → Bytes
  | 0, _ => []
  | fuel + 1, v => if v = 0 then [] else digits256 fuel (v / 256) ++ [UInt8.ofNat (v % 256)]

/-- `wordlist` of src/qrl/wordlist.cpp:3-376: the words as character strings. -/
@[irreducible] def wordlist : List Bytes := wordBlocks.flatten.map (digits256 8)

end Qrl
