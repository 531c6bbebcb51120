#!/usr/bin/env python3
"""Check the citations of the model: every definition in lean/Verif/Model has a comment, and every
`file:lines` it cites exists in /repo/src or /repo/libexec and contains the name in backquotes that follows it."""
import gzip, os, re, sys
root = os.path.dirname(os.path.dirname(os.path.abspath(__file__)))
model = root + '/lean/Verif/Model'
src = sys.argv[1] if len(sys.argv) > 1 else '/repo/src'
files = {f: (gzip.open if f.endswith('.gz') else open)(f'{d}/{f}', 'rt', errors='replace').read().split('\n')
         for d in (src, src + '/../libexec') for f in os.listdir(d)}
nodoc, nocite, bad, n = [], [], [], 0
for f in sorted(os.listdir(model)):
    text = open(f'{model}/{f}').read()
    for m in re.finditer(r'(/--(?:(?!-/).)*?-/\s*)?^(?:@\[[^\]]*\]\s*)*(?:noncomputable |private |protected )*(def|structure|inductive|abbrev)\s+(\S+)', text, re.M | re.S):
        doc, kind, name = m.groups()
        where = f'{f}:{text.count(chr(10), 0, m.start(3)) + 1} {name}'
        if doc is None: nodoc.append(where); continue
        cites = list(re.finditer(r'([A-Za-z_]+\.(?:[ch]|py|txt\.gz)):((?:\d+(?:-\d+)?(?:, ?)?)+)', doc))
        if not cites: nocite.append(where)
        for c in cites:
            n += 1
            file, spans = c.group(1), re.findall(r'(\d+)(?:-(\d+))?', c.group(2))
            if file not in files: bad.append(f'{where}: no file {file}'); continue
            body = ''
            for a, b in spans:
                a, b = int(a), int(b or a)
                if not 1 <= a <= b <= len(files[file]): bad.append(f'{where}: {file}:{a}-{b} out of range')
                body += '\n'.join(files[file][a - 1:b]) + '\n'
            q = re.match(r'[:,]?\s*`([A-Za-z_]\w*)`', doc[c.end():])
            if q and q.group(1) not in body: bad.append(f'{where}: {q.group(1)} not in {file}:{c.group(2)}')
print(n, 'citations'); 
for t, l in (('no comment', nodoc), ('no citation', nocite), ('wrong', bad)):
    print(f'{t}: {len(l)}'); [print('  ', x) for x in l]
