import json
P=[]
def p(title, statement, quantifier, why, anchors):
    P.append(dict(id="C%02d"%(len(P)+1), title=title, statement=statement, quantifier=quantifier, why_tests_cant=why, anchors=anchors))
W="The domain is a continuum (or an unbounded set of sizes/histories); a test only samples points of it."
p("An error slot keeps the first error; NULL slots are accepted",
 "However many library calls report into the same polycap_error**, the error a user reads afterwards is the first one that was set; later reports do not replace or corrupt it, and a NULL error argument is always accepted and has no effect.",
 "every sequence of set/set_literal/propagate/clear calls, every slot state", "Needs all call histories.", ["src/polycap-error.c: polycap_set_error, polycap_set_error_literal, polycap_propagate_error, polycap_clear_error"])
p("The error API never double-frees and never loses an error object",
 "Over every sequence of error API calls that respects ownership, every allocated error object is either reachable by the user or freed exactly once; error_copy yields an independent equal object.",
 "every well-formed history of new/copy/set/propagate/clear/free", "Needs all call histories and an exact account of frees.", ["src/polycap-error.c"])
p("polycap_profile_new accepts exactly the documented argument domain",
 "polycap_profile_new returns NULL with INVALID_ARGUMENT when any length/radius/focal distance is non-positive, an internal radius is not smaller than the external one, or the type is unknown; otherwise (memory permitting) it returns a 1000-point profile and leaves the error slot untouched.",
 "all double arguments, including NaN and infinities, all types, all error slots", "Boundary and NaN behaviour of nine interacting guards over all doubles.", ["src/polycap-profile.c:66-207 polycap_profile_new"])
p("Conical profiles are geometrically sound",
 "For every accepted argument tuple the conical profile starts at z=0 and ends at z=length, z is strictly increasing, capillary and external radii interpolate linearly between the given end radii, and at every point 0 < cap < ext.",
 "all accepted real arguments, all profile indices", W, ["src/polycap-profile.c:142-148"])
p("Ellipsoidal profiles meet the requested end radii",
 "For every accepted argument tuple, an ellipsoidal profile has the requested external radius at entrance and exit and real-valued radii in between.",
 "all accepted real arguments", W, ["src/polycap-profile.c:171-195"])
p("Every profile type uses the same z grid and conical capillary",
 "For each of the three types the z grid and the single-capillary radius are the same linear functions of the arguments; only the external shape depends on type and focal distances.",
 "all accepted arguments and types", W, ["src/polycap-profile.c:141-204"])
p("Constructors are clean under allocation failure",
 "If any malloc inside a constructor fails, the constructor returns NULL with a MEMORY error, everything it had allocated is released and nothing is released twice; if it succeeds the result owns all the blocks.",
 "every pattern of allocation failures", "Every crash point inside every constructor.", ["src/polycap-profile.c polycap_profile_new, polycap_profile_new_from_arrays", "src/polycap-description.c polycap_description_new"])
p("Profiles built from arrays can be read back unchanged",
 "polycap_profile_new_from_arrays followed by get_ext/get_cap/get_z returns the same number of points and element-wise identical data, in arrays owned by the caller and independent of the arrays passed in.",
 "all array contents and sizes", W, ["src/polycap-profile.c:426-519"])
p("A validated profile keeps its outer capillaries inside the optic",
 "polycap_profile_validate returns 1 only if for every capillary of the outer shell and every z the outermost radial point of the capillary lies in the hexagonal optic, and returns 0 if one of them does not.",
 "all profiles, all capillary counts, all outer-shell capillaries", W, ["src/polycap-profile.c:321-423 polycap_profile_validate"])
p("polycap_description_new accepts exactly the documented argument domain",
 "polycap_description_new returns NULL with an error if roughness is negative, n_cap<=1, no elements, NULL composition arrays, non-positive density, an atomic number outside 1..111, or an infeasible profile.",
 "all arguments", W, ["src/polycap-description.c:89-231"])
p("polycap_description_new returns NULL if and only if it reports an error",
 "A caller can detect failure of polycap_description_new equivalently by the NULL result or by the error slot.",
 "all arguments, all error slots", W, ["src/polycap-description.c:89-231", "src/polycap-description.c:58-85"])
p("Composition weights are normalised consistently",
 "Weights given as percentages are divided by 100 and weights given as fractions are kept; an accepted composition sums to exactly 1 with no negative weight, and re-checking an accepted composition changes nothing.",
 "all weight vectors of any length", W, ["src/polycap-description.c:58-85 polycap_description_check_weight"])
p("Shell count and capillary count of the hexagonal stacking agree",
 "For a full stacking of N shells, n_cap = 3N(N+1)+1, the number of shells used everywhere is N; the shell count is monotone in n_cap, and the capillary number used for the open area is always a full hexagonal number.",
 "all n_cap", W, ["src/polycap-description.c:213-216", "src/polycap-profile.c:337", "src/polycap-photon.c:483"])
p("A description does not alias the profile it was made from",
 "polycap_description_new copies profile and composition: the description read back equals the input and later changes or freeing of the input objects do not affect it.",
 "all profiles and later heap histories", "Aliasing must be excluded for every later history.", ["src/polycap-description.c:131-211"])
p("The in-optic test is exactly a regular hexagon",
 "The boundary test accepts a centrally and mirror symmetric, convex, scale-covariant hexagon: it contains the disc of radius sqrt(3)/2*r, is contained in a disc of radius r (up to the 20-digit constant used), is monotone in the radius, ignores z, and reports an error exactly for non-positive radii.",
 "all points and radii", W, ["src/polycap-photon.c:139-169 polycap_photon_within_pc_boundary"])
p("A photon is assigned to the nearest capillary",
 "The (q,r) index selected for a photon position is a lattice index whose capillary centre is at minimal distance among all lattice capillaries.",
 "all photon positions, all optic sizes", W, ["src/polycap-photon.c:539-552", "src/polycap-capil.c:960-973"])
p("The selected capillary exists",
 "The capillary a photon starting inside the optic is assigned to is one of the capillaries of the stacking (its shell index does not exceed the number of shells).",
 "all photon start positions inside the optic", W, ["src/polycap-photon.c:538-645"])
p("Wall intersections lie on the capillary wall and on the photon path",
 "When the segment intersection search succeeds, the returned point is on the photon's straight line, inside the segment's z range, strictly further downstream than the previous interaction, and at a distance from the capillary axis equal to the interpolated capillary radius; the returned normal is a unit vector. When it fails the photon position is unchanged.",
 "all segments, photon positions and directions", W, ["src/polycap-capil.c:52-255 polycap_capil_segment"])
p("Wall intersection never succeeds with undefined coordinates",
 "A successful intersection search returns finite coordinates for all finite inputs.",
 "all finite inputs", W, ["src/polycap-capil.c:119-157"])
p("Reflections obey the law of reflection",
 "After a reflection the photon direction is a unit vector with the component along the surface normal reversed and the tangential component unchanged.",
 "all unit directions and normals", W, ["src/polycap-capil.c:1345-1352", "src/polycap-photon.c:365-386"])
p("Fresnel reflectivity is a probability",
 "The polarised reflectivity used per energy is between 0 and 1 for every grazing geometry, polarisation and physical refractive index, so the internal range check never rejects a physical photon.",
 "all directions, normals, electric vectors, refractive indices", W, ["src/polycap-capil.c:444-563 polycap_refl_polar"])
p("Photon weights never increase and stay in [0,1]",
 "Through any number of reflections every energy weight of a photon is multiplied by a factor in [0,1]; the weights returned for a launched photon are in [0,1].",
 "all reflection histories, all energies", "Unbounded number of reflections and leak recursions.", ["src/polycap-capil.c:624-645", "src/polycap-photon.c:390-955"])
p("Leak events never create intensity",
 "For each energy, the remaining weight of a photon plus the weights of all internal and external leak events recorded for it never exceeds the weight it started with, including leaks of leaks.",
 "all reflection/leak recursion trees", "Unbounded recursion.", ["src/polycap-capil.c:565-891 polycap_capil_reflect"])
p("polycap_photon_launch return codes mean what they say",
 "launch returns -1 for invalid arguments, -2 exactly when the start point is outside the optic, 2 when it hits the glass at the entrance, 0 when absorbed, 1 when transmitted; no other value occurs.",
 "all photons and descriptions", W, ["src/polycap-photon.c:390-955", "include/polycap-photon.h"])
p("A transmitted photon comes with its weights",
 "Whenever polycap_photon_launch returns 1 the weights array handed to the caller holds one initialised weight per energy.",
 "all photons", W, ["src/polycap-photon.c:457-458,858-923"])
p("Launching is repeatable",
 "Launching the same photon object again with the same arguments gives the same return code, reflections count, travelled distance and exit state.",
 "all photons, any number of launches", "Needs all histories.", ["src/polycap-photon.c:433-504"])
p("polycap_source_new accepts exactly the documented argument domain",
 "polycap_source_new returns NULL with INVALID_ARGUMENT for a NULL description, non-positive distance or source size, |polarisation|>1, missing energies or an energy outside [1,100] keV; otherwise the source stores exactly the given values and an independent copy of the description.",
 "all arguments", W, ["src/polycap-source.c:147-225"])
p("Generated photons start on the optic entrance with a unit direction",
 "A photon generated from a source has z=0, unit direction with positive z, comes from a point of the source ellipse, and its line from the source plane at distance d_source hits its start coordinates.",
 "all sources and random streams", W, ["src/polycap-source.c:23-144 polycap_source_get_photon"])
p("Uniform illumination starts inside the optic",
 "With negative source divergence every generated photon starts inside the optic's hexagonal entrance (polycapillary).",
 "all sources and random streams", "Rejection loop of unbounded length.", ["src/polycap-source.c:74-92"])
p("Generated polarisation is transverse",
 "The electric vector of a generated photon is a unit vector orthogonal to its direction, in the plane spanned by its direction and the x (or y) axis, and horizontal exactly when the drawn number is at most (1+hor_pol)/2.",
 "all sources and random streams", W, ["src/polycap-source.c:112-137"])
p("Photon generation is a function of the random stream",
 "The photon generated is fully determined by the source and the random numbers consumed, and consecutive photons consume consecutive disjoint stretches of the stream.",
 "all streams", W, ["src/polycap-source.c:23-144", "src/polycap-rng.c"])
p("Transmission simulations return exactly the requested number of exits",
 "For n_photons requested, exactly n_photons exit records are produced, each slot written exactly once whatever the thread assignment, and n_start >= n_exit.",
 "all thread assignments, interleavings and photon outcomes", "All schedules.", ["src/polycap-source.c:696-1071"])
p("Transmission efficiencies are probabilities",
 "Each efficiency equals the sum of exit weights divided by the number of counted started photons, is between 0 and 1 and is at most the simulated open area.",
 "all outcomes, thread counts and energies", W, ["src/polycap-source.c:1054-1077"])
p("Results do not depend on the thread schedule",
 "For fixed photon outcomes, counters and efficiencies are the same and the leak records are the same multiset for every assignment of photons to threads and every order of critical sections.",
 "all interleavings", "All schedules.", ["src/polycap-source.c:973-1032"])
p("No leak event of a counted photon is lost or duplicated",
 "The leak events reported by a simulation are exactly the leak events of all photons that were transmitted, absorbed or hit the entrance wall, each once, and the reported count is the length of the list.",
 "all outcome histories", "Unbounded retry histories and buffer regrowth.", ["src/polycap-source.c:799-961,982-1032"])
p("n_start is the number of started photons",
 "The reported number of started photons equals the number of photons launched that reached the optic.",
 "all outcome histories", W, ["src/polycap-source.c:758-780,1070"])
p("Simulation getters return what was recorded",
 "get_start_data/get_exit_data/get_*leak_data return the recorded values slot by slot (weights included) and rebuild unit direction vectors whose z component was dropped.",
 "all recorded images", W, ["src/polycap-transmission-efficiencies.c:782-1054"])
p("The HDF5 file holds every recorded value in the right place",
 "For every dataset the number of written values equals the product of its declared dimensions and the value at row k, column j is the recorded value of component k of event j.",
 "all sizes", W, ["src/polycap-transmission-efficiencies.c:318-780"])
p("HDF5 failures are reported",
 "polycap_transmission_efficiencies_write_hdf5 returns false and sets an error exactly when some write failed.",
 "every pattern of HDF5 call failures", "Every failure point.", ["src/polycap-transmission-efficiencies.c:318-780"])
p("HDF5 error codes map by the exact table before the minor table",
 "The code reported for an HDF5 failure is the exact (major,minor) entry if there is one, else the minor entry, else RUNTIME, and building the tables never writes past their capacity, once or repeatedly.",
 "all error pairs, any number of initialisations", W, ["src/polycap-transmission-efficiencies.c:58-241"])
p("Input lines are read completely and safely",
 "For every line shorter than 2^32-128 bytes, as long as the memory it asks for is granted, polycap_read_input_line returns exactly the characters up to the next newline or end of file and never writes outside its buffer; exactly longer lines and refused growing reallocations lead to undefined behaviour.",
 "all file contents, all outcomes of the allocator", "All lengths.", ["src/polycap-description.c:24-56"])
p("Photon travel distance dominates displacement",
 "The travelled distance of a launched photon is non-negative, non-decreasing and at least the straight-line distance between start and last interaction.",
 "all reflection histories", "Unbounded histories.", ["src/polycap-capil.c:1315-1324"])
p("Photons move downstream and reflections are bounded",
 "Each reflection moves a photon downstream by at least 1e-5 cm, so the number of reflections in an optic of given length is bounded, and never exceeds the number of profile points.",
 "all photons", "Unbounded histories.", ["src/polycap-capil.c:167-177", "src/polycap-photon.c:909-919"])
p("Exterior-intersection search stays inside the profile arrays",
 "The search for the point where a photon left the optic only reads existing profile points; a point it returns lies on the photon's line and within the found z segment.",
 "all profiles, points, directions", W, ["src/polycap-photon.c:174-362 polycap_photon_pc_intersect"])
p("Leak data getters of a photon return deep copies",
 "get_extleak_data/get_intleak_data return false with an error when there is no leak, otherwise as many leaks as recorded, with equal contents and weights in fresh memory.",
 "all photons", W, ["src/polycap-photon.c:1038-1121"])
p("Absorption coefficients are non-negative weighted sums",
 "For an accepted composition the linear absorption coefficient of each energy is density times the weighted sum of element cross sections, non-negative, linear in the composition and independent of element order.",
 "all compositions and energies", W, ["src/polycap-photon.c:22-94"])
p("Freeing accepts NULL and frees each block once",
 "Every *_free function accepts NULL and releases every block an object owns exactly once.",
 "all objects", W, ["polycap_profile_free, polycap_description_free, polycap_source_free, polycap_photon_free, polycap_transmission_efficiencies_free"])
p("The segment index found for a z position is the right one",
 "For increasing z grids, the index used to interpolate the optic radius at a photon's z satisfies z[id] <= z <= z[id+1] whenever z is inside the optic, and the interpolated radius lies between the two neighbouring radii.",
 "all grids and positions", W, ["src/polycap-photon.c:506-512", "src/polycap-capil.c:923-934,1330-1336"])
p("The thread count used is valid",
 "Whatever max_threads the caller passes, the simulation runs with between 1 and the maximum number of OpenMP threads.",
 "all integers", W, ["src/polycap-source.c:491-493", "src/main.c:49-54"])
p("Sources read from file satisfy the same contract as polycap_source_new",
 "A source returned by polycap_source_new_from_file meets the argument domain that polycap_source_new enforces.",
 "all file contents", W, ["src/polycap-source.c:228-445"])
p("A validated stacking has no overlapping capillaries",
 "If polycap_profile_validate returns 1, no two capillaries of the stacking overlap at any z (so the theoretical open area is at most 1).",
 "all profiles, all capillary counts", W, ["src/polycap-profile.c:321-423 polycap_profile_validate"])
p("A simulation of a valid setup has no undefined behaviour and no deadlock, and ends exactly when enough photons come out",
 "Whatever the thread schedule, a simulation of a valid source and optic never reads or writes outside its arrays and never waits forever at a synchronisation point; it returns if and only if every thread's random stream eventually delivers as many transmitted photons as the thread has slots, after a number of steps bounded by the photons simulated.",
 "all schedules, slot distributions, random streams", "All schedules.", ["src/polycap-source.c:448-1087 polycap_source_get_transmission_efficiencies"])
p("Launching a photon without leak calculation always returns",
 "polycap_photon_launch with leak calculation off returns for every photon, every well-formed optic and every accepted list of energies: no endless loop, no access outside the profile, no NULL dereference.",
 "all photons with non-negative start z, all grids, all energies", W, ["src/polycap-photon.c:366-973 polycap_photon_launch", "src/polycap-capil.c"])
p("A simulation is refused exactly for the documented reasons",
 "polycap_source_get_transmission_efficiencies returns NULL with INVALID_ARGUMENT when the source or its description is NULL, a progress monitor is passed, there is no energy or an energy outside 1-100 keV, or fewer than one photon is requested; otherwise it never returns NULL and never touches the error slot.",
 "all arguments", W, ["src/polycap-source.c:459-489"])
p("A profile read from files holds exactly the tables in the files",
 "polycap_profile_new_from_file returns a profile with the z and external radius columns of the shape file and the radius column of the single capillary file when the three files are complete and agree in their counts; otherwise it returns NULL with an error, and all files are closed.",
 "all file contents, all allocation failures", W, ["src/polycap-profile.c:209-317 polycap_profile_new_from_file"])
p("The command line program reports its outcome",
 "polycap exits with status 0 exactly if it was called without arguments or source file, simulation and output all succeeded; otherwise it prints an error message and exits with status 1. It never dereferences a missing error object, passes on a valid thread count and writes to the named output file.",
 "all argument lists, all outcomes of the library calls", "Needs all combinations of library outcomes.", ["src/main.c:22-87 main"])
p("String copies are complete and terminated",
 "polycap_strdup returns a fresh NUL-terminated copy of the whole string, polycap_strndup of at most the given number of characters, without reading behind the terminator or writing outside the new block.",
 "all strings and lengths", W, ["src/polycap-aux.c:20-43"])
p("A NULL or false result always comes with an error",
 "When reading a source or a profile from file, running a simulation or writing a result fails (NULL or false), the error variable passed by the caller holds an error.",
 "all arguments, file contents and failures of the underlying calls", W, ["src/polycap-source.c:228-445,448-489", "src/polycap-profile.c:209-317", "src/polycap-transmission-efficiencies.c:318-1145"])
p("Reflection amplitudes are the Fresnel amplitudes",
 "The amplitudes used for the s and p components of a photon hitting the wall are the Fresnel amplitudes for the complex refractive index of the glass, 1 - δ + iβ with δ from the electron density (atomic numbers, anomalous scattering factors, atomic weights, mass fractions, density) and β from the linear absorption coefficient at the wavelength of the photon.",
 "all angles and refractive indices", W, ["src/polycap-capil.c:26-47,444-561 polycap_refl_polar"])
p("Malformed source files are reported",
 "polycap_source_new_from_file returns NULL with an error for a file that ends too early or holds a word where a number is expected.",
 "all file contents", W, ["src/polycap-source.c:267-370"])
p("Every legal history of API calls behaves as its values say",
 "A program that only uses objects it created and has not freed (and launches a photon, or writes a result, only while the description or source it came from exists) sees exactly what the same calls on plain values would give: every array, photon, result and error. It never touches freed memory, whatever the order of creating, simulating, reading and freeing; once everything is freed no memory is left over except one block per description refused for its profile.",
 "all legal histories of calls (creating, reading, launching, simulating, writing, freeing), any number of objects", "Ranges over all call sequences.", ["include/polycap.h", "src/polycap-profile.c", "src/polycap-description.c", "src/polycap-source.c", "src/polycap-photon.c", "src/polycap-transmission-efficiencies.c"])
p("Objects do not change behind the caller's back",
 "A profile, description or result keeps its value until it is freed, and the inputs of a simulation of a source (geometry, spectrum, optic) are the ones given when the source was made: earlier simulations, launches, and freeing the profile and description it was built from have no effect.",
 "all histories of calls", "Ranges over all call sequences.", ["src/polycap-source.c:23-144,448-1087", "src/polycap-description.c:88-197"])
p("Results and photons are independent of the objects they came from",
 "A photon can be launched after the description or source it was made from is freed, and a result can be written after its source is freed or used for another simulation, with the same outcome.",
 "all histories of calls", "Ranges over all call sequences.", ["src/polycap-photon.c:98-174 polycap_photon_new", "src/polycap-source.c:497,1066", "src/polycap-transmission-efficiencies.c:697-763"])
p("Library errors become Python exceptions",
 "When a library call made by the Python module reports an error, the module raises an exception whose class depends on the kind of error only (memory, invalid argument, I/O, ...), with the error's message; without an error nothing is raised and the error object is released.",
 "all errors and messages", W, ["python/polycap.pyx:130-165 polycap_set_exception"])
p("Profile arrays read from Python hold the profile",
 "Profile.get_z/get_cap/get_ext return arrays with the values of the profile's z, capillary radius and external radius tables.",
 "all profiles", W, ["python/polycap.pyx:214-259"])
p("Numpy arguments are passed with the values the caller sees",
 "Energies, profile tables and vectors passed as numpy arrays or sequences reach the library with the values the caller sees, whatever their memory layout.",
 "all one-dimensional arrays (any offset and stride)", W, ["python/polycap.pyx:172-210,347-382,772-800,853-942"])
p("A Python program never crashes the interpreter while origins are kept alive",
 "A Python program that passes contiguous arrays, does not use the ignore argument and does not let go of a Description or Source while it launches photons or writes results made from it never crashes: every statement gives the value of the corresponding library call or raises an exception, whatever names and classes of objects it uses, and when all objects are collected no library memory is left over (except one block per Description refused for its profile).",
 "all Python programs (sequences of statements)", "Ranges over all programs.", ["python/polycap.pyx"])
p("Python objects keep alive what they need",
 "A Photon can be launched and TransmissionEfficiencies written as long as they exist, whatever happens to the Description or Source they were made from.",
 "all Python programs", "Ranges over all programs and collection orders.", ["python/polycap.pyx:389-470,699-760,853-942"])
p("Photon.launch returns one weight per energy or None",
 "Photon.launch returns an array with one transmission probability in [0,1] per energy, or None when the photon hits the glass at the entrance; nothing else and no memory is lost.",
 "all photons, optics and energies", W, ["python/polycap.pyx:908-942 Photon.launch"])
p("Results read from Python are the recorded ones",
 "After a simulation, every property of TransmissionEfficiencies (start, exit, leak, weight arrays), read any number of times in any order, gives one entry per photon (per leak) with the recorded values; data gives energies and efficiencies; collecting the object releases what the reads allocated.",
 "all results, all sequences of property reads", "Ranges over all read sequences.", ["python/polycap.pyx:364-730", "src/polycap-transmission-efficiencies.c"])
p("Leaks of a photon read from Python are those of its launch",
 "Photon.extleak_data and intleak_data, read any number of times in any order, give one Leak per leak of the launched photon with its values; collecting the photon releases everything it owned and everything the reads allocated, and nothing else.",
 "all photons with their leaks, all sequences of reads, all prior memory contents", "Ranges over all read sequences and heaps.", ["python/polycap.pyx:743-822,893-906,943-983", "src/polycap-photon.c polycap_photon_get_extleak_data", "src/polycap-leak.c"])
p("Random generators are reproducible and independent",
 "The k-th number drawn from a generator is number k of the stream of its seed, whatever is done in between with other generators; two generators with the same seed give the same numbers; freeing every generator releases all memory.",
 "all legal sequences of creating, drawing from and freeing generators, any number of generators", "Ranges over all call sequences.", ["src/polycap-rng.c", "python/polycap.pyx:262-279 Rng"])
p("Leak events are well formed",
 "Every leak event recorded by a launch (and handed out after a simulation) has a unit direction pointing downstream, a reflection count that is not negative, a position not above the start of the photon, one weight per energy and at least one energy of which a fraction of 1e-4 or more is left.",
 "all optics, photons with a downstream start direction started in a capillary or on the front face, energies and random streams", W, ["src/polycap-capil.c:565-891 polycap_capil_reflect", "src/polycap-photon.c:428-956 polycap_photon_launch", "src/polycap-transmission-efficiencies.c:929-1054"])
p("A launch with leak calculation has no undefined behaviour",
 "polycap_photon_launch with leak calculation on stays inside the profile's arrays for every photon that starts in the optic or at its front face and flies downstream.",
 "all optics, photons, energies and cross sections", W, ["src/polycap-photon.c:366-973 polycap_photon_launch", "src/polycap-capil.c:565-891 polycap_capil_reflect, polycap_capil_trace_wall", "src/polycap-photon.c:176-364 polycap_photon_pc_intersect"])
p("Python integers out of the range of their C type never reach the library",
 "A thread, photon or capillary count that does not fit the C type of the argument raises OverflowError, without calling the library; one that fits is passed on unchanged.",
 "all integers, all programs", "Ranges over all integers and programs.", ["python/polycap.pyx:296-362,1129-1152", "python/source.pxd", "python/description.pxd"])
p("A photon object reports what it was made with",
 "polycap_photon_new gives a photon exactly if a description is given, start position and direction do not point upstream (z >= 0) and there is memory, otherwise NULL and an error. The getters of a new photon give its start values for start and exit, distance 0 and 0 reflections; after any launches the start position and electric vector still read as given, the start direction as given or as the unit vector along it.",
 "all arguments, all sequences of launches (with good and bad arguments)", "Ranges over all arguments and launch histories.", ["src/polycap-photon.c:98-136 polycap_photon_new", "src/polycap-photon.c:957-1012 polycap_photon_get_*"])
p("Progress is reported without disturbing the simulation",
 "While a simulation runs, the first thread prints its progress each time it has finished another tenth of its share of the photons; printing never stops or corrupts the simulation, for any number of photons and threads the arguments can hold.",
 "all photon and thread counts, distributions of the photons over the threads, schedules", "Needs counts of millions of photons and all schedules.", ["src/polycap-source.c:743-745,886-890 polycap_source_get_transmission_efficiencies"])
p("Paraboloidal profiles meet the requested end radii",
 "For every accepted argument tuple a paraboloidal profile has the requested external radius at entrance and exit, and the capillary fits inside the optic at every point.",
 "all accepted arguments; the polynomial fit is any exact least-squares fit", "Ranges over a continuum of arguments.", ["src/polycap-profile.c:24-60 polynomialfit", "src/polycap-profile.c:149-169 polycap_profile_new"])
p("Launch reports its failures in the error argument",
 "polycap_photon_launch never overwrites an error that is already set and computes the same result with and without an error argument. It sets an error whenever it refuses its arguments, when the photon starts outside the optic (-2) and when a cross section cannot be computed; without leak calculation a photon that is absorbed (0), blocked by the wall (2) or transmitted (1) leaves the error empty and a failure (-1) sets it.",
 "all arguments, photons, optics, cross section libraries and incoming error values", W, ["src/polycap-photon.c:366-973 polycap_photon_launch", "src/polycap-capil.c:38-1412"])
p("A photon that meets no wall is transmitted unchanged",
 "A photon whose straight line from its start to the exit plane stays inside its capillary is transmitted: launch returns 1 with weight 1 for every energy, no reflections, and the direction the photon had, whether or not leaks are calculated.",
 "all optics, start positions and directions, energies, compositions with computable cross sections", W, ["src/polycap-capil.c:38-255 polycap_capil_segment", "src/polycap-capil.c:1253-1412 polycap_capil_trace", "src/polycap-photon.c:428-973 polycap_photon_launch"])
p("A launch leaves no memory behind",
 "Launching a photon allocates only what the caller can release: the returned array of weights and the leak events of the photon. Releasing the weights and the photon afterwards, as documented, returns every block the launch ever allocated and touches no other object; no block is released twice or used after its release, and a launch that fails (also for lack of memory) leaves the photon usable. A refused launch changes nothing.",
 "all photons (new, or launched before), optics, energies, cross sections, leak setting, and every pattern of failing allocations", "Ranges over all heaps, photons, launch histories and allocation failures.", ["src/polycap-photon.c:390-955 polycap_photon_launch", "src/polycap-photon.c:22-94 polycap_photon_scatf", "src/polycap-photon.c:1135-1162 polycap_photon_free", "src/polycap-capil.c:565-891 polycap_capil_reflect", "src/polycap-photon.c:1014-1134 polycap_leak_new"])
p("Every leak event is where the light goes",
 "Every leak event that a launch records, or that is handed out after a simulation, lies on the way of the photon's light: on a straight line along the reported direction, downstream of a point the photon reached after as many reflections as reported, or where light that entered another bore, going straight on, meets the exit plane. An external leak is recorded where the light leaves through the side of the optic, or for light that passes the exit plane beside the window; an internal leak is light that leaves through the exit window, recorded on the exit plane.",
 "all optics, photons going downstream, energies, compositions, histories of reflections and leaks", W, ["src/polycap-capil.c:565-891 polycap_capil_reflect", "src/polycap-capil.c:893-1251 polycap_capil_trace_wall", "src/polycap-photon.c:428-955 polycap_photon_launch", "src/polycap-source.c:1122-1223 polycap_transmission_efficiencies_get_extleak_data"])
p("A simulation releases everything its threads allocate",
 "Whatever photons a simulation draws and however its threads are scheduled, when the threads have ended the memory is what it was before them: photons, weights, leak events, the threads' growing lists of leaks and the random generators are all released, none twice. At any moment every block the simulation holds belongs to exactly one thread, and a thread changes only its own blocks; no thread uses a released block. Lack of memory is reported, not undefined.",
 "all sources, optics, photon and thread counts, random numbers, schedules, leak setting, initial heaps, and every pattern of failing allocations", "Ranges over all schedules, random streams and heaps.", ["src/polycap-source.c:687-1052 polycap_source_get_transmission_efficiencies", "src/polycap-source.c:22-222 polycap_source_get_photon", "src/polycap-photon.c:1014-1162 polycap_leak_new, polycap_leak_free, polycap_photon_free"])
p("A photon does not pass through glass",
  "The trajectory a launch computes stays in the opening of the photon's capillary: on every straight flight between two reflections, and after the last one up to the exit of the optic when the photon is reported as transmitted, every point is nearer to the axis of the capillary than its radius at that height (axis and radius interpolated between the profile points). In particular a photon reported as transmitted has not crossed a wall.",
  "every profile (any number of points, any radii, capillary axes of any course), every photon, every leak flag, every result of the launch, every point of every flight",
  W, ["src/polycap-capil.c: polycap_capil_trace, polycap_capil_segment", "src/polycap-photon.c: polycap_photon_launch"])
p("Calculating leaks does not change the photon",
  "The leak calculation of a launch only adds leak records: with it switched on, the return value, the weights, and the photon left behind (position, direction, electric vector, number of reflections, distance travelled) are those of the launch without it.",
  "every optic, every photon starting in a capillary, every list of energies, every result of the launch",
  W, ["src/polycap-capil.c: polycap_capil_reflect (wall_trace, leak_flag)", "src/polycap-photon.c: polycap_photon_launch"])
p("The outcome for one energy does not depend on the other energies",
  "A launch treats each energy on its own: the weight an energy ends with, the return value and the photon's trajectory do not depend on the order of the energies, on repetitions, or on which other energies are launched with it. The one exception is by design: when all energies have fallen below a weight of 10^-4 the photon is absorbed, so that an energy kept company by a stronger one is followed further, to even smaller weights.",
  "every optic, every photon, every two lists of energies one of which contains the other, every result of the launch (without leak calculation)",
  W, ["src/polycap-capil.c: polycap_capil_reflect (energy loop, weight_flag), polycap_refl_polar", "src/polycap-photon.c: polycap_photon_launch"])

p("A photon that has not left the optic is not thrown away",
  "Launching a photon returns the failure code (-1) without an error only for a photon that has left the optic. In particular a photon that is reflected and whose way from there to the exit lies in the opening of its capillary is reported as transmitted.",
  "for every optic, every photon, every number of reflections and every place of the last reflection",
  W, ["src/polycap-capil.c: polycap_capil_trace", "src/polycap-photon.c: polycap_photon_launch"])

p("Every launch returns",
  "A call of polycap_photon_launch comes to an end: the walk of light through the glass and the recursion of light leaking from one capillary into the next, being reflected there and leaking further, are finite, with a depth limited by the length of the optic.",
  "every optic the library accepts, every photon, every list of energies, both leak settings",
  "Non-termination cannot be observed by a test, and the loops and the recursion have no counter; the bound must hold for every geometry.", ["src/polycap-capil.c:893-1251 polycap_capil_trace_wall (do-while loops, goto next_hexagon)", "src/polycap-capil.c:565-891 polycap_capil_reflect (recursion through polycap_capil_trace)", "src/polycap-photon.c:390-955 polycap_photon_launch"])

p("No light is forgotten",
  "With leak calculation a launch accounts for all of the photon's light. At every reflection the light divides into the reflected part and the part that enters the glass; what of the latter arrives where it leaves the glass is recorded as a leak event with exactly that weight per energy, or followed - by the same rule, to any depth - in the bore it enters and recorded when it comes out of it, unless it has become fainter than 10^-4 at every energy. So for every energy transmitted and leaked weight together never exceed what went in, and in transparent glass fall short of it by less than 10^-4 per reflection.",
  "every optic, every photon, every list of energies, every number of reflections and every depth of light leaking from bore to bore",
  W, ["src/polycap-capil.c:565-891 polycap_capil_reflect (w_leak, leak_flag, wall_trace)", "src/polycap-capil.c:893-1195 polycap_capil_trace_wall", "src/polycap-photon.c:644-954 polycap_photon_launch"])

p("A transmitted photon keeps a physical polarisation",
  "The electric vector of a photon that was launched with a unit vector orthogonal to its direction of flight is again a unit vector, orthogonal to the direction in which the photon leaves, after any number of reflections.",
  "every optic, every photon, every number of reflections, every geometry of the walls",
  W, ["src/polycap-capil.c:512-556 polycap_refl_polar", "src/polycap-capil.c:625-654 polycap_capil_reflect", "include/polycap-photon.h: polycap_photon_get_exit_electric_vector"])

p("A launch carries out geometric optics",
  "A launch without leak calculation does what one would draw by hand: from the start the photon goes straight to the first wall it meets, is mirrored there, each energy is multiplied by its reflectivity for that angle and polarisation and by the roughness factor, and so on, until every energy is below 10^-4 (return value 0) or the way to the exit is clear (return value 1). Return value, weights, exit direction, place of the last reflection, number of reflections and travelled distance are exactly those of that drawing.",
  "every optic with positive radii, every capillary, every photon starting in an opening, every list of energies, every number of reflections up to the number of profile points (beyond which the code stops), as long as the drawing keeps clear of the numerical tolerances",
  W, ["src/polycap-capil.c:1197-1345 polycap_capil_trace", "src/polycap-capil.c: polycap_capil_segment, polycap_capil_reflect, polycap_refl_polar", "src/polycap-photon.c: polycap_photon_launch"])

p("Straight capillaries: equal angles, equal distances, a power law for the transmission",
  "In a straight capillary a launched photon hits the wall always under the same angle and at equally spaced heights, given by the closed formula for a line in a cylinder; its inclination never changes. It is reported as transmitted after exactly the number of reflections the formula gives before the exit, with the product of that many reflectivities as weight, or as absorbed at the first of these reflections that leaves every energy below 10^-4; the travelled distance is height over the cosine of the inclination.",
  "every straight capillary (alone or in a bundle), every start point in it, every inclined direction, every list of energies, every number of reflections up to the number of profile points",
  W, ["src/polycap-capil.c:1197-1345 polycap_capil_trace", "src/polycap-capil.c: polycap_capil_segment, polycap_capil_reflect", "src/polycap-photon.c: polycap_photon_launch"])

p("The polarisation images of a simulation show the polarisation",
  "For every transmitted photon a simulation records the axis along which its electric vector pointed when it entered and the axis along which it pointed, after its reflections, when it came out: 1 0 or 0 1 at the start, always 1 0 from a source with full horizontal polarisation, and at the exit the direction to which the reflections turned it.",
  "every valid source and optic, every number of photons, threads and energies, every interleaving, every number of reflections",
  W, ["src/polycap-source.c:788-797, 909-918 polycap_source_get_transmission_efficiencies (start and exit electric vectors)", "src/polycap-source.c: polycap_source_get_photon", "src/polycap-capil.c: polycap_refl_polar", "include/polycap-transmission-efficiencies.h: polycap_transmission_efficiencies_get_start_data, polycap_transmission_efficiencies_get_exit_data"])

p("Mirror images fare alike",
  "A capillary on its own is symmetric: launching the mirror image of a photon - start, direction and electric vector mirrored in the plane x = 0, the plane y = 0 or both - gives the same return value, the same weight for every energy, the same number of reflections and distance, and leaves the photon in the mirror image of the place and direction.",
  "every monocapillary, every photon, every list of energies, every number of reflections, every outcome of the launch including failures",
  W, ["src/polycap-capil.c: polycap_capil_trace, polycap_capil_segment, polycap_capil_reflect, polycap_refl_polar", "src/polycap-photon.c: polycap_photon_launch", "src/polycap-photon.c: polycap_photon_within_pc_boundary"])

p("Asking for leaks changes nothing else in the results of a simulation",
  "polycap_source_get_transmission_efficiencies called with leak_calc = true returns, apart from the leak arrays and leak counters, what the same call returns with leak_calc = false for the same random numbers and the same distribution of the photons over the threads: the same efficiencies, open area, numbers of started and exited photons, start images, exit images and exit weights.",
  "every source, optic and list of energies, every number of photons and threads, every random stream, every distribution of the photons and every interleaving of the threads",
  W, ["src/polycap-source.c:448-1087 polycap_source_get_transmission_efficiencies", "src/polycap-photon.c: polycap_photon_launch", "src/polycap-capil.c: polycap_capil_reflect, polycap_capil_trace"])

p("Reading a source from file leaves nothing behind",
 "polycap_source_new_from_file either returns a source that holds exactly the values of the file and whose release restores memory as it was before the call, or returns NULL with an error and leaves memory (and open files) as they were before the call, whatever allocations fail.",
 "all file contents, all outcomes of the allocator, any prior memory", W, ["src/polycap-source.c:228-445", "src/polycap-source.c:1090-1105"])

p("A launch that runs out of memory fails cleanly",
 "When polycap_photon_launch cannot get memory it returns -1 (or its normal result if the missing memory was not needed for it) and leaves exactly the photon, without working arrays, and the array for the returned weights: no other block is lost, no other object touched, whichever of its requests for memory are refused.",
 "all photons, optics, energy lists and prior memory contents, every subset of refused allocations", W, ["src/polycap-photon.c:22-94 polycap_photon_scatf", "src/polycap-photon.c:390-955 polycap_photon_launch", "src/polycap-capil.c:565-891 polycap_capil_reflect"])

p("Photons are generated with the right distribution",
 "With an ideal random number generator every photon handed out by a source originates uniformly over the area of the (shifted) source ellipse; its direction has slopes uniform within the two divergences, or, for uniform illumination, its start is uniform over the hexagonal entrance of a polycapillary (over the square that encloses the bore for a single capillary); its electric vector is horizontal with probability (1 + hor_pol)/2 and vertical otherwise; these three choices are independent, and a photon is produced with probability one.",
 "every valid source and optic, every set of positions, directions or start points one may ask the probability of, every number of photons generated before", W, ["src/polycap-source.c:23-144 polycap_source_get_photon", "src/polycap-photon.c: polycap_photon_within_pc_boundary"])
p("Smoother walls never weaken a photon",
 "A photon that polycap_photon_launch carries through an optic (return value 1, no leak calculation) is also carried through the same optic with smoother walls: same return value, same path and end point, same number of reflections, and at every energy at least as much weight.",
 "all optics, all pairs of roughness values with the second smaller, all photons and energy lists", W, ["src/polycap-capil.c:565-891 polycap_capil_reflect", "src/polycap-capil.c:1250-1366 polycap_capil_trace", "src/polycap-photon.c:390-955 polycap_photon_launch"])
p("Simulated efficiencies converge",
 "With perfect random number generators the transmission efficiencies reported by polycap_source_get_transmission_efficiencies come, with probability one, arbitrarily close to one fixed value as the number of photons grows: the mean weight a generated photon carries through the exit window, divided by the share of photons that count as started (transmitted, absorbed, or stopped by the front face). The value does not depend on the number of threads, the schedule, the distribution of the photons over the threads, or the seeds; two series of simulations of the same source and optic agree in the limit.",
 "every valid source (divergent or uniform illumination) and optic, leak calculation on or off, every energy, every number of threads, every distribution of the photons over them and every interleaving, almost every sequence of random numbers", W, ["src/polycap-source.c:448-1087 polycap_source_get_transmission_efficiencies", "src/polycap-source.c:23-144 polycap_source_get_photon", "src/polycap-photon.c:390-955 polycap_photon_launch"])
p("The simulated open area is the open area of the optic",
 "Under uniform illumination of the optic and with perfect random number generators the open area reported by polycap_source_get_transmission_efficiencies tends, with probability one, to the share of the entrance face that is open - the open area its description states for a hexagonal stacking - and no reported efficiency exceeds it in the limit, since a photon gets in only through an open bore.",
 "every valid source with uniform illumination and every optic, single capillary or polycapillary with any number of shells, every bore radius that leaves glass between the bores, every energy, number of threads, distribution of photons and interleaving, almost every sequence of random numbers", W, ["src/polycap-source.c:448-1087 polycap_source_get_transmission_efficiencies (open_area)", "src/polycap-source.c:23-144 polycap_source_get_photon", "src/polycap-photon.c:390-955 polycap_photon_launch (front face test)", "src/polycap-description.c: polycap_description_new (open_area)"])
p("Total reflection",
 "A photon that polycap_photon_launch carries through an optic keeps, at an energy at which the smooth glass does not absorb, exactly its full weight if it met every wall at most at the critical angle of that energy, and loses weight if it met one wall at a larger angle; at an energy at which the glass absorbs it keeps its full weight only if it was not reflected at all. The reflectivity of light polarised along the wall never grows with the angle, and at grazing incidence the loss of a reflection is at most proportional to the angle.",
 "all optics with refractive indices between 0 and 1, all photons that get through without leak calculation, any number of reflections and any angles, all energies, all polarisations", W, ["src/polycap-capil.c:444-562 polycap_refl_polar", "src/polycap-capil.c:565-891 polycap_capil_reflect", "src/polycap-photon.c:390-955 polycap_photon_launch"])
p("The way of a photon is a matter of geometry alone",
 "Two photons that start at the same place in the same direction, or at mirror images of a place in mirror images of a direction (in the planes x = 0, y = 0, in which the stacking of capillaries is its own mirror image), and that both get through optics of the same shape, come out at the same place, or mirror images of it, in the same (mirrored) direction, after the same number of reflections and equally long ways. Their energies and polarisations, the composition, density and roughness of the glass and the calculation of leaks have no influence. Light polarised along one of these axes also comes out with the same weights.",
 "all pairs of photons and of descriptions with the same profile and number of capillaries, monocapillary or polycapillary with any number of shells, whose capillaries do not touch where the photons start; any number of reflections; all energies, polarisations, compositions, roughnesses, leak settings", W, ["src/polycap-photon.c:390-955 polycap_photon_launch", "src/polycap-capil.c:1197-1361 polycap_capil_trace", "src/polycap-capil.c:23-250 polycap_capil_segment"])
p("Skew photons stay skew",
 "In a capillary whose axis is along z - the one of a single-capillary optic of any shape, or any one of an optic with constant outer radius - no launch changes the angular momentum of a photon about the axis: however often it was reflected and however the launch ended, x*dy - y*dx of the reported exit coordinates and direction is that of the start. A photon in a plane through the axis stays in it; one that leaves a single capillary through the exit window does so at a sine to the axis of at least its angular momentum over the radius of the window, so none with more angular momentum than this radius is counted.",
 "all profiles, photons, energies and leak settings, any number of reflections", W, ["src/polycap-capil.c:23-250 polycap_capil_segment", "src/polycap-capil.c:1197-1361 polycap_capil_trace", "src/polycap-photon.c:390-955 polycap_photon_launch", "src/polycap-source.c:762-777"])
p("What a taper does to the light in it",
 "In a capillary with its axis along z a photon launched in the bore ends at an angle to the axis at least that of its start if the radius never grows downstream, at most if it never shrinks (so it is never turned back, and a launch that returns 1 sets no error), and the same if it is constant. In a conical one the photon is at the end of its way, seen from the apex of the cone, where it would be had it flown the travelled distance straight on: at the same distance from the apex, with the same component of its motion towards it; so only photons whose straight line passes the apex no farther away than the rim of the exit get out through it.",
 "all profiles with monotone radii (or conical ones), photons, energies and leak settings, any number of reflections", W, ["src/polycap-capil.c:23-250 polycap_capil_segment", "src/polycap-capil.c:1197-1361 polycap_capil_trace", "src/polycap-photon.c:390-955 polycap_photon_launch", "src/polycap-profile.c:23-130 polycap_profile_new (conical)"])
p("A single capillary has no preferred direction",
 "Two photons that start in one and the same single-capillary optic from positions and in directions that differ by a rotation about its axis by any angle, or by a reflection in a plane through it, and that both get through, come out at positions and in directions that differ by that rotation, after the same number of reflections and equally long ways, whatever their energies and polarisations and the glass; and both start outside the optic or neither does.",
 "all profiles, all pairs of photons whose starts differ by a rotation, all angles, any number of reflections, all energies, polarisations, compositions and leak settings", W, ["src/polycap-photon.c:390-955 polycap_photon_launch", "src/polycap-capil.c:1197-1361 polycap_capil_trace", "src/polycap-capil.c:23-250 polycap_capil_segment", "src/polycap-photon.c:139-171 polycap_photon_within_pc_boundary"])
p("The image a simulation reports is the image of the optic",
 "With perfect random number generators the transmitted photons reported by polycap_source_get_transmission_efficiencies are a faithful sample: for every region of emission points, entrance points, exit points, exit directions, numbers of reflections and travelled distances, the share of the reported photons that lie in it tends, with probability one, to the probability that a generated photon leaves through the exit window in that region given that it leaves there at all, and the sum of their reported weights over the number of photons started to the mean weight delivered there per photon counted; the ratio of the reported numbers of exited and started photons converges likewise. Spot sizes, profiles and histograms computed from the images do not depend on threads, schedule or seeds in the limit.",
 "every measurable region, every valid source and optic, leak calculation on or off, every energy, every number of threads, every distribution of the photons over them and every interleaving, almost every sequence of random numbers", W, ["src/polycap-source.c:448-1087 polycap_source_get_transmission_efficiencies (images)", "src/polycap-source.c:23-144 polycap_source_get_photon", "src/polycap-photon.c:390-955 polycap_photon_launch"])
p("The efficiency of an energy does not depend on the order of the energies, and not much on their company",
 "Without leak calculation, two simulations of the same source and optic with the same energies in another order or with repetitions, from the same random streams, report the same numbers of photons, open area, starts and exits, and for every energy the same efficiency and the same weights, wherever it stands in the lists. With further energies added the efficiency of an energy is, in the limit of many photons, never lowered; the mean weight delivered per generated photon rises by at most 10⁻⁴ (the absorption cut-off), and the share of the generated photons that count does not rise.",
 "every valid source, optic and list of energies at which the glass refracts, every reordering, repetition or sub-list, any number of photons and of threads, every distribution of the photons over the threads and every interleaving; for other company: almost every sequence of random numbers", W, ["src/polycap-source.c:448-1087 polycap_source_get_transmission_efficiencies", "src/polycap-photon.c:390-955 polycap_photon_launch", "src/polycap-capil.c:565-891 polycap_capil_reflect"])
p("Smoother walls never lower a simulated efficiency",
 "Without leak calculation, in the limit of many photons the efficiencies reported for an optic are, at every energy, not higher than those reported for the same optic with smoother walls (a smaller roughness in its description): every photon that is transmitted is also transmitted by the smoother optic, with at least its weight, and every photon that counts as generated with the smoother walls counts with the rougher ones.",
 "every valid source, optic and list of energies at which the glass refracts, every pair of roughnesses, any numbers of threads, distributions of the photons over them and interleavings, almost every sequence of random numbers", W, ["src/polycap-source.c:448-1087 polycap_source_get_transmission_efficiencies", "src/polycap-photon.c:390-955 polycap_photon_launch", "src/polycap-capil.c:565-891 polycap_capil_reflect"])
p("Asking for more photons only adds photons",
 "The photons polycap_source_get_transmission_efficiencies puts into its report are those the random numbers of the thread give, whatever the number of photons asked for: of two completed simulations of the same source and optic from the same random streams, with different numbers of photons or of threads or another distribution of the photons over them, the i-th photon a thread transmits has in both the same start, exit, number of reflections, travelled distance and weights. If no thread has fewer photons to do in the second, it reports at least as many further photons started as further photons transmitted.",
 "every source, optic, list of energies, leak setting and kind of numbers, including floating point; every two numbers of photons and threads, distributions and interleavings; all random streams with which both simulations complete", W, ["src/polycap-source.c:448-1087 polycap_source_get_transmission_efficiencies", "src/polycap-source.c:23-144 polycap_source_get_photon"])
p("A simulation can be split into smaller ones and pooled",
 "What polycap_source_get_transmission_efficiencies reports with many threads is the sum of what it would report with one thread for each thread's random numbers and share of the photons: the numbers of photons started and transmitted and of leak events of both kinds are the sums, the leak events are those of the parts in some order, every transmitted photon is found in the report of its thread with the same start, exit, reflections, distance and weights, and open area and efficiencies are the means of the parts weighted with the numbers of photons started.",
 "every source, optic, list of energies, leak setting, number of photons and threads, distribution of the photons over them (threads without photons included) and interleaving; all random streams with which the simulations complete; the counts and photons for every kind of numbers, the weighted means for exact reals", W, ["src/polycap-source.c:448-1087 polycap_source_get_transmission_efficiencies"])
p("A simulation can be repeated photon by photon",
 "What polycap_source_get_transmission_efficiencies reports is what a user finds who, for the random numbers of each thread, calls polycap_source_get_photon and polycap_photon_launch again and again until the thread's share of the photons has left through the exit window: the reported transmitted photons are exactly those, in order, with their starts, exits and weights, and the numbers of photons started and transmitted are those he counts (transmitted through the window, not transmitted, or on the glass); the leak events are those of these photons.",
 "every source, optic, list of energies, leak setting, kind of numbers (floating point included), number of photons and threads, distribution of the photons over them and interleaving; all random streams with which the simulation completes", W, ["src/polycap-source.c:448-1087 polycap_source_get_transmission_efficiencies", "src/polycap-source.c:23-144 polycap_source_get_photon", "src/polycap-photon.c:390-955 polycap_photon_launch"])
p("Optics with the same face are lit by the same photons",
 "From the same random numbers a source generates the same photons - place on the source, place on the face, direction, electric vector, in the same order - for two optics that present the same face to it (any two optics for a source with a given divergence; for uniform illumination the same opening of single capillaries, or the same outer radius of polycapillaries), whatever becomes of the photons there and whatever the shape behind the face, the glass, the roughness, the number of capillaries, the energies and the leak calculation. Two simulations that compare such optics from the same random numbers generate the same photons, thread by thread, until the shorter one ends. If the optics also have the same number of capillaries with the same openings at the entrance, each photon is reported off the optic or on the glass of the face (-2, 2) for both or for neither.",
 "every valid source, every pair of optics with the same face, every two lists of energies and leak settings, every number of launches; all random streams; for simulations every two numbers of photons and threads, distributions and interleavings with which they complete; exact reals", W, ["src/polycap-source.c:23-144 polycap_source_get_photon", "src/polycap-source.c:448-1087 polycap_source_get_transmission_efficiencies", "src/polycap-photon.c:390-955 polycap_photon_launch"])
if __name__=="__main__":
    with open("/verif/properties.jsonl","w") as f:
        for x in P: f.write(json.dumps(x)+"\n")
    print(len(P))
