#!/usr/bin/env python3
"""Lists the Go functions of /repo, and in which module of the model they are cited (by file and lines)."""
import re, os, glob, collections, sys
REPO = '/repo'
funcs = []  # (file, start, end, name)
for root, _, files in os.walk(REPO):
    for f in files:
        p = os.path.join(root, f)
        if not f.endswith('.go') or f.endswith('_test.go') or f == 'parser.go' and root.endswith('/parser'):
            continue
        rel = os.path.relpath(p, REPO)
        if rel.startswith(('testsupport', 'code-gen', 'make')):
            continue
        lines = open(p).read().split('\n')
        i = 0
        while i < len(lines):
            m = re.match(r'func (?:\(\s*\w*\s*\*?([\w]+)\s*\) )?(\w+)', lines[i])
            if m:
                j = i
                if not lines[i].rstrip().endswith('}') or lines[i].count('{') != lines[i].count('}'):
                    while j + 1 < len(lines) and not lines[j].startswith('}'):
                        j += 1
                funcs.append((rel, i + 1, j + 1, (m.group(1) + '.' if m.group(1) else '') + m.group(2)))
                i = j
            i += 1
cites = collections.defaultdict(list)  # basename -> (a, b, module)
for p in sorted(glob.glob('/verif/lean/Verif/Model/*.lean')):
    mod = os.path.basename(p)[:-5]
    s = open(p).read()
    # "<file>.go[: ]lines? a-b, c-d" and lists of lines after it
    for m in re.finditer(r'(?:[\w./]*/)?([\w]+\.go)((?:[:,\s]|lines?|and|\d+(?:\s*-\s*\d+)?)*)', s):
        f = m.group(1)
        for a, b in re.findall(r'(\d+)(?:\s*-\s*(\d+))?', m.group(2)):
            a = int(a); b = int(b) if b else a
            cites[f].append((a, b, mod))
    # doc comments that cite "lines a-b" alone refer to the file cited last
    home = {'Substitute': 'document_processing_apply_substitutions.go', 'Refine': 'document_processing_refine_fragments.go'}.get(mod)
    last = home
    for m in re.finditer(r'(?:(/--))|([\w]+\.go)|\b[Ll]ines? (\d+)(?:-(\d+))?((?:(?:, | and )\d+(?:-\d+)?)*)', s):
        if m.group(1):
            last = home or last
        elif m.group(2):
            last = m.group(2)
        elif last:
            for a, b in re.findall(r'(\d+)(?:-(\d+))?', m.group(0)):
                cites[last].append((int(a), int(b) if b else int(a), mod))
# functions that need no definition of their own, or are covered by something that is not cited by line
NOTES = [
    (r'sgml_renderer\.go$', r'.', 'Templates (generated by tools/tmpl2lean.py); the accessor parses the text of the template once'),
    (r'types\.go$', r'\.(Get|Set|Add)\w+$|\.(LastElement|ListKind|Reference|Contains|HasSuffix|Append|RawText|Stringify|Initials)$', 'a field of the element, or a function on it, in Elements or in the model of its caller'),
    (r'types\.go$|attributes\.go$', r'^New|^toLabeled', 'a constructor of Elements; that the grammar calls it with these arguments is an assumption on the code of the actions wherever Actions does not give it'),
    (r'attributes\.go$', r'Clone|HasAttributeWithValue|HasNotAttribute', 'part of the callers (Attributes, Elements)'),
    (r'types\.go$', r'Location\.', 'Substitute, Elements: locations are their text'),
    (r'parser_ext\.go$|parse_fragments\.go$|apply_substitutions\.go$', r'^current\.', 'the store of the grammar: answers of `S.pred` and effects of `S.act` (Grammar); assumptions name what they answer'),
    (r'document_substitutions\.go$', r'.', 'Subs: substitutions as a list'),
    (r'arrange_lists\.go$', r'.', 'Lists: the stack as a list'),
    (r'filter_elements\.go$', r'.', 'Filter'),
    (r'document_preprocessing\.go$', r'racker|absoluteOffset', 'Preprocess: field of the state'),
    (r'parse_fragments\.go$', r'.', 'FragmentLoop'),
    (r'apply_substitutions\.go$', r'enableExperimental', 'Substitute'),
    (r'html5\.go$', r'.', 'Render: the choice of templates'),
    (r'predefined_attributes\.go$', r'.', 'Values, Render: table of predefined attributes'),
    (r'types_utils\.go$', r'.', 'operations on lists, in the definitions of their callers'),
    (r'validator\.go$', r'.', 'Validator: part of the definition of the caller'),
    (r'sgml/', r'^(unescapeString|lastInStrings|trimLineFeedSuffix)$|^sgmlRenderer\.|^plaintextRenderer\.|^RenderPlainText$|^WithoutEscape$', 'Render: part of the definition of the caller'),
]
PLAIN = {'NewYamlFrontMatter'}
def note(f, n):
    if n in PLAIN or n.endswith('.Reference'):
        return None
    for fp, np, t in NOTES:
        if re.search(fp, f) and re.search(np, n):
            return t
by = collections.OrderedDict()
for f, a, b, n in sorted(funcs):
    base = os.path.basename(f)
    mods = sorted({m for (x, y, m) in cites[base] if x <= b and y >= a})
    by.setdefault(f, []).append((n, a, b, mods))
tot = sum(len(v) for v in by.values()); cov = sum(1 for v in by.values() for x in v if x[3])
non = [(f, n) for f, v in by.items() for n, _, _, m in v if not m and not note(f, n)]
print(f"""# Functions of the Go code and the modules of the model

Made by tools/coverage.py: a module is named where a comment of lean/Verif/Model cites lines of the function
({cov} of {tot} functions).  Functions without citation are accessors, constructors and one-line helpers that
are part of the definition of their callers (in brackets, where), except for the {len(non)} that are **not modelled**:
""")
for f, n in non:
    print(f'* `{n}` in {f}')
print("""
The grammar (pkg/parser/parser.peg) is modelled as a whole: Model/Grammar.lean, 338 rules, generated by
tools/peg2lean.py; so are all templates of html5 and xhtml5: Model/Templates.lean, generated by tools/tmpl2lean.py.
""")
for f, v in by.items():
    print(f'## {f}\n')
    for n, a, b, mods in v:
        t = note(f, n)
        print(f'* `{n}` ({a}-{b}): ' + (', '.join(mods) if mods else f'({t})' if t else '**not modelled**'))
    print()
